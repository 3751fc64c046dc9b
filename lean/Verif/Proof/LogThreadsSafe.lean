import Verif.Proof.LogThreads

namespace Verif.LogThreads
open Verif.C
open Verif.Log (Module Proc Proc2 Out Env Ftime)

/-! ### Nothing goes wrong -/

/-- The configuration is fine. -/
structure Fine (env : Env) (c : Config) : Prop where
  ne : 0 < c.modules.length
  parent : ∀ (i : Nat) m p, c.modules[i]? = some m → m.parent = some p → p < c.modules.length
  fmt : ∃ cur, Log.FormatIs c cur ∧ ∀ f, cur = some f → (env.strftime f).length < 32
  dflt : (env.strftime Log.ftimeDefault).length < 32

/-- The message can be printed. -/
def JobOk (c : Config) (j : Job) : Prop := j.target < c.modules.length ∧ j.msg.length < 2 ^ 31 - 1

/-- The format can be used. -/
def PtrOk (env : Env) (c : Config) (f : Ftime) : Prop := ∃ t, chars c f = .ok t ∧ (env.strftime t).length < 32

/-- The thread may go on. -/
def PcOk (env : Env) (c : Config) : Pc → Prop
  | .idle => True
  | .entry j => JobOk c j
  | .flags j none => JobOk c j ∧ c.func2.isSome
  | .flags j (some i) | .inherit j i | .hasParent j i | .parent j i | .own j i | .ownLevel j i => JobOk c j ∧ c.func2.isSome ∧ i < c.modules.length
  | .default j | .hasProc j | .func2 j => JobOk c j ∧ c.func2.isSome
  | .proc j => JobOk c j ∧ ∀ m, c.modules[j.target]? = some m → m.proc.isSome
  | .func j => JobOk c j
  | .hideName j _ | .name j _ | .wrap j _ => JobOk c j
  | .stamp j _ _ | .format j _ _ | .again j _ _ | .print j _ _ _ => JobOk c j
  | .first j _ _ f | .strftime j _ _ f => JobOk c j ∧ PtrOk env c f

theorem fine_good {env : Env} {c : Config} (g : Fine env c) : ∃ f, chars c c.ftime = .ok f ∧ (env.strftime f).length < 32 := by
  obtain ⟨cur, h1, h2⟩ := g.fmt
  cases cur with
  | none => exact ⟨_, by rw [h1.2.1]; rfl, g.dflt⟩
  | some f =>
    obtain ⟨a, _, h4, h5, _⟩ := h1
    refine ⟨f, ?_, h2 f rfl⟩
    rw [h4]
    simp only [chars, str, h5]

theorem get_lt {c : Config} {i : Nat} (h : i < c.modules.length) : ∃ m, c.modules[i]? = some m ∧ c.get i = .ok m :=
  ⟨_, List.getElem?_eq_getElem h, Log.get_ok c i _ (List.getElem?_eq_getElem h)⟩

theorem enter_ok {env : Env} {c : Config} (g : Fine env c) {j : Job} (hj : JobOk c j) (p : Proc) (name : Option Str) :
    ∃ pc l, enter env c j p name = .ok (pc, l) ∧ PcOk env c pc := by
  cases p with
  | stdout => exact ⟨_, _, rfl, hj⟩
  | stderr => exact ⟨_, _, rfl, hj⟩
  | glib => exact ⟨_, _, rfl, trivial⟩
  | other id => exact ⟨_, _, rfl, trivial⟩
  | syslog =>
    obtain ⟨d, _, hd⟩ := get_lt g.ne
    have : ∃ o, Log.syslog env c name j.level j.msg = .ok o := by
      unfold Log.syslog
      rw [hd, ok_bind, Log.format_ok j.msg hj.2, ok_bind]
      split <;> exact ⟨_, rfl⟩
    obtain ⟨o, ho⟩ := this
    exact ⟨.idle, o.map .out, by rw [enter, ho, ok_bind], trivial⟩

theorem enterFunc_ok {env : Env} {c : Config} (g : Fine env c) {j : Job} (hj : JobOk c j) (p : Proc) (name : Option Str) :
    ∃ pc l, enterFunc env c j p name = .ok (pc, l) ∧ PcOk env c pc := by
  obtain ⟨pc, l, h1, h2⟩ := enter_ok g hj p name
  exact ⟨pc, .called p :: l, by rw [enterFunc, h1, ok_bind], h2⟩

theorem enter2_ok {env : Env} {c : Config} {j : Job} (hj : JobOk c j) (p : Proc2) : ∃ pc l, enter2 j (some p) = .ok (pc, l) ∧ PcOk env c pc := by
  cases p with
  | default => exact ⟨_, _, rfl, hj⟩
  | wrap p => exact ⟨_, _, rfl, hj⟩
  | other id => exact ⟨_, _, rfl, trivial⟩

theorem compare_ok {env : Env} {c : Config} {j : Job} (hj : JobOk c j) (hf : c.func2.isSome = true) (max : Int) : PcOk env c (compare j max) := by
  unfold compare
  split
  · exact ⟨hj, hf⟩
  · trivial

theorem next_ok {env : Env} {c : Config} (g : Fine env c) {pc : Pc} (h : PcOk env c pc) (hi : pc ≠ .idle) :
    ∃ pc' l, next env c pc = .ok (pc', l) ∧ PcOk env c pc' := by
  cases pc with
  | idle => exact absurd rfl hi
  | entry j =>
    by_cases hc : j.level ≠ Log.NONE ∧ c.func2.isSome
    · refine ⟨.flags j j.module, [], by rw [next, if_pos hc], ?_⟩
      cases hm : j.module with
      | none => exact ⟨h, hc.2⟩
      | some i =>
        refine ⟨h, hc.2, ?_⟩
        have := h.1
        unfold Job.target at this
        rw [hm] at this
        exact this
    · exact ⟨.idle, [], by rw [next, if_neg hc], trivial⟩
  | flags j check =>
    cases check with
    | none => exact ⟨_, _, rfl, h⟩
    | some i =>
      obtain ⟨m, hm, hg⟩ := get_lt h.2.2
      rw [next, hg, ok_bind]
      refine ⟨_, _, rfl, ?_⟩
      split
      · trivial
      · exact h
  | inherit j i =>
    obtain ⟨m, hm, hg⟩ := get_lt h.2.2
    rw [next, hg, ok_bind]
    refine ⟨_, _, rfl, ?_⟩
    split <;> exact h
  | hasParent j i =>
    obtain ⟨m, hm, hg⟩ := get_lt h.2.2
    rw [next, hg, ok_bind]
    refine ⟨_, _, rfl, ?_⟩
    split <;> exact h
  | parent j i =>
    obtain ⟨m, hm, hg⟩ := get_lt h.2.2
    rw [next, hg, ok_bind]
    refine ⟨_, _, rfl, ?_⟩
    cases hp : m.parent with
    | none => exact ⟨h.1, h.2.1⟩
    | some p => exact ⟨h.1, h.2.1, g.parent i m p hm hp⟩
  | own j i =>
    obtain ⟨m, hm, hg⟩ := get_lt h.2.2
    rw [next, hg, ok_bind]
    refine ⟨_, _, rfl, ?_⟩
    split
    · exact h
    · exact ⟨h.1, h.2.1⟩
  | ownLevel j i =>
    obtain ⟨m, hm, hg⟩ := get_lt h.2.2
    rw [next, hg, ok_bind]
    exact ⟨_, _, rfl, compare_ok h.1 h.2.1 _⟩
  | default j =>
    obtain ⟨m, hm, hg⟩ := get_lt g.ne
    rw [next, hg, ok_bind]
    exact ⟨_, _, rfl, compare_ok h.1 h.2 _⟩
  | hasProc j =>
    obtain ⟨m, hm, hg⟩ := get_lt h.1.1
    rw [next, hg, ok_bind]
    refine ⟨_, _, rfl, ?_⟩
    split
    · rename_i hp
      refine ⟨h.1, ?_⟩
      intro m' hm'
      rw [hm] at hm'
      injection hm' with hm'
      rw [← hm']
      exact hp
    · exact h
  | proc j =>
    obtain ⟨m, hm, hg⟩ := get_lt h.1.1
    obtain ⟨p, hp⟩ := Option.isSome_iff_exists.mp (h.2 m hm)
    rw [next, hg, ok_bind, hp]
    exact enter2_ok h.1 p
  | func2 j =>
    obtain ⟨p, hp⟩ := Option.isSome_iff_exists.mp h.2
    rw [next, hp]
    exact enter2_ok h.1 p
  | func j =>
    rw [next]
    split
    · exact ⟨_, _, rfl, h⟩
    · exact ⟨_, _, rfl, trivial⟩
  | hideName j p =>
    obtain ⟨m, hm, hg⟩ := get_lt h.1
    rw [next, hg, ok_bind]
    split
    · exact enterFunc_ok g h p none
    · exact ⟨_, _, rfl, h⟩
  | name j p =>
    obtain ⟨m, hm, hg⟩ := get_lt h.1
    rw [next, hg, ok_bind]
    exact enterFunc_ok g h p _
  | wrap j p =>
    obtain ⟨m, hm, hg⟩ := get_lt h.1
    rw [next, hg, ok_bind]
    exact enter_ok g h p _
  | stamp j err name =>
    refine ⟨_, _, rfl, ?_⟩
    split <;> exact h
  | format j err name => exact ⟨_, _, rfl, h, fine_good g⟩
  | first j err name f =>
    obtain ⟨t, ht, _⟩ := h.2
    rw [next, ht, ok_bind]
    refine ⟨_, _, rfl, ?_⟩
    split <;> exact h.1
  | again j err name => exact ⟨_, _, rfl, h, fine_good g⟩
  | strftime j err name f =>
    obtain ⟨t, ht, hl⟩ := h.2
    rw [next, ht, ok_bind, Log.stamp, if_pos hl, ok_bind]
    exact ⟨_, _, rfl, h.1⟩
  | print j err name t =>
    rw [next, Log.format_ok j.msg h.2, ok_bind]
    exact ⟨_, _, rfl, trivial⟩

/-- The change doesn't disturb those who are logging. -/
def Gentle (c c' : Config) : Prop :=
  c'.modules.length = c.modules.length ∧ c'.heap = c.heap ∧ (c.func2.isSome → c'.func2.isSome) ∧
  ∀ (i : Nat) m', c'.modules[i]? = some m' → ∃ m, c.modules[i]? = some m ∧ (m.proc.isSome → m'.proc.isSome)

theorem job_gentle {c c' : Config} (h : Gentle c c') {j : Job} (hj : JobOk c j) : JobOk c' j := ⟨by rw [h.1]; exact hj.1, hj.2⟩

theorem ptr_gentle {env : Env} {c c' : Config} (h : Gentle c c') {f : Ftime} (hf : PtrOk env c f) : PtrOk env c' f := by
  obtain ⟨t, h1, h2⟩ := hf
  refine ⟨t, ?_, h2⟩
  rw [← h1]
  cases f with
  | default => rfl
  | «at» a => rw [chars, chars, h.2.1]

theorem pc_gentle {env : Env} {c c' : Config} (h : Gentle c c') {pc : Pc} (hp : PcOk env c pc) : PcOk env c' pc := by
  have hl := h.1
  cases pc with
  | idle => trivial
  | flags j check =>
    cases check with
    | none => exact ⟨job_gentle h hp.1, h.2.2.1 hp.2⟩
    | some i => exact ⟨job_gentle h hp.1, h.2.2.1 hp.2.1, by rw [hl]; exact hp.2.2⟩
  | inherit j i => exact ⟨job_gentle h hp.1, h.2.2.1 hp.2.1, by rw [hl]; exact hp.2.2⟩
  | hasParent j i => exact ⟨job_gentle h hp.1, h.2.2.1 hp.2.1, by rw [hl]; exact hp.2.2⟩
  | parent j i => exact ⟨job_gentle h hp.1, h.2.2.1 hp.2.1, by rw [hl]; exact hp.2.2⟩
  | own j i => exact ⟨job_gentle h hp.1, h.2.2.1 hp.2.1, by rw [hl]; exact hp.2.2⟩
  | ownLevel j i => exact ⟨job_gentle h hp.1, h.2.2.1 hp.2.1, by rw [hl]; exact hp.2.2⟩
  | default j => exact ⟨job_gentle h hp.1, h.2.2.1 hp.2⟩
  | hasProc j => exact ⟨job_gentle h hp.1, h.2.2.1 hp.2⟩
  | func2 j => exact ⟨job_gentle h hp.1, h.2.2.1 hp.2⟩
  | proc j =>
    refine ⟨job_gentle h hp.1, ?_⟩
    intro m' hm'
    obtain ⟨m, hm, himp⟩ := h.2.2.2 _ m' hm'
    exact himp (hp.2 m hm)
  | first j err name f => exact ⟨job_gentle h hp.1, ptr_gentle h hp.2⟩
  | strftime j err name f => exact ⟨job_gentle h hp.1, ptr_gentle h hp.2⟩
  | _ => exact job_gentle h hp

theorem modify_at {c : Config} {i k : Nat} {f : Module → Module} {m' : Module} (h : (modify c i f).modules[k]? = some m') :
    ∃ m, c.modules[k]? = some m ∧ (m' = m ∨ m' = f m ∧ i = k) := by
  unfold modify at h
  dsimp only at h
  rw [List.getElem?_modify] at h
  cases hk : c.modules[k]? with
  | none => rw [hk] at h; cases h
  | some m =>
    rw [hk] at h
    by_cases e : i = k
    · simp [e] at h
      exact ⟨m, rfl, .inr ⟨h.symm, e⟩⟩
    · simp [e] at h
      exact ⟨m, rfl, .inl h.symm⟩

theorem gentle_modify {c : Config} (i : Nat) (f : Module → Module) (h : ∀ m, m.proc.isSome → (f m).proc.isSome) : Gentle c (modify c i f) := by
  refine ⟨by simp [modify], rfl, id, ?_⟩
  intro k m' hm'
  obtain ⟨m, h1, h2⟩ := modify_at hm'
  refine ⟨m, h1, ?_⟩
  rcases h2 with h2 | ⟨h2, _⟩
  · rw [h2]; exact id
  · rw [h2]; exact h m

theorem fine_modify {env : Env} {c : Config} (g : Fine env c) (i : Nat) (f : Module → Module)
    (h : ∀ m p, (f m).parent = some p → m.parent = some p ∨ p < c.modules.length) : Fine env (modify c i f) := by
  have hl : (modify c i f).modules.length = c.modules.length := by simp [modify]
  refine ⟨by rw [hl]; exact g.ne, ?_, ?_, g.dflt⟩
  · intro k m' p hm' hp
    rw [hl]
    obtain ⟨m, h1, h2⟩ := modify_at hm'
    rcases h2 with h2 | ⟨h2, _⟩
    · rw [h2] at hp; exact g.parent k m p h1 hp
    · rw [h2] at hp
      rcases h m p hp with h3 | h3
      · exact g.parent k m p h1 h3
      · exact h3
  · obtain ⟨cur, h1, h2⟩ := g.fmt
    exact ⟨cur, h1, h2⟩

theorem change_ok {env : Env} {s : State} (g : Fine env s.cfg) (x : Setting) (ha : Allowed env s (.set x)) :
    ∃ c', change s.cfg x = .ok c' ∧ Fine env c' ∧ (dangerous x = false → Gentle s.cfg c') := by
  obtain ⟨h1, h2, h3, h4⟩ := g
  have g : Fine env s.cfg := ⟨h1, h2, h3, h4⟩
  have same : Gentle s.cfg s.cfg := ⟨rfl, rfl, id, fun i m' h => ⟨m', h, id⟩⟩
  cases x with
  | func p => exact ⟨_, rfl, ⟨h1, h2, h3, h4⟩, fun _ => same⟩
  | func2 p =>
    refine ⟨_, rfl, ⟨h1, h2, h3, h4⟩, ?_⟩
    intro hd
    cases p with
    | none => cases hd
    | some p => exact ⟨rfl, rfl, fun _ => rfl, same.2.2.2⟩
  | timestamp b => exact ⟨_, rfl, ⟨h1, h2, h3, h4⟩, fun _ => same⟩
  | tid b => exact ⟨_, rfl, ⟨h1, h2, h3, h4⟩, fun _ => same⟩
  | proc i p =>
    refine ⟨_, rfl, fine_modify g i _ (fun _ _ h => .inl h), ?_⟩
    intro hd
    cases p with
    | none => cases hd
    | some p => exact gentle_modify i _ (fun _ _ => rfl)
  | level i l => exact ⟨_, rfl, fine_modify g i _ (fun _ _ h => .inl h), fun _ => gentle_modify i _ (fun _ h => h)⟩
  | parent i p =>
    refine ⟨_, rfl, fine_modify g i _ ?_, fun _ => gentle_modify i _ (fun _ h => h)⟩
    intro m q hq
    dsimp only at hq
    cases p with
    | none => cases hq
    | some p => injection hq with hq; subst hq; exact .inr ha
  | flags i a b => exact ⟨_, rfl, fine_modify g i _ (fun _ _ h => .inl h), fun _ => gentle_modify i _ (fun _ h => h)⟩
  | name i n => exact ⟨_, rfl, fine_modify g i _ (fun _ _ h => .inl h), fun _ => gentle_modify i _ (fun _ h => h)⟩
  | format f =>
    obtain ⟨cur, h5, h6⟩ := h3
    obtain ⟨s1, e1, e2, e3⟩ := Log.setFormat_ok s.cfg cur f h5
    refine ⟨s1, e1, ?_, fun h => by cases h⟩
    have hm : s1.modules = s.cfg.modules := by injection e3
    refine ⟨by rw [hm]; exact h1, by rw [hm]; exact h2, ⟨f, e2, ?_⟩, h4⟩
    intro t ht
    subst ht
    exact ha

/-- What's always true -/
structure Inv (env : Env) (s : State) : Prop where
  fine : Fine env s.cfg
  pcs : ∀ t, PcOk env s.cfg (s.pc t)

theorem goto_same (s : State) (t : Nat) (pc : Pc) : (s.goto t pc).pc t = pc := if_pos rfl

theorem goto_other (s : State) {t u : Nat} (pc : Pc) (h : u ≠ t) : (s.goto t pc).pc u = s.pc u := if_neg h

theorem inv_goto {env : Env} {s : State} (i : Inv env s) (t : Nat) {pc : Pc} (h : PcOk env s.cfg pc) (l : List Event) : Inv env { s.goto t pc with hist := l } := by
  refine ⟨i.fine, ?_⟩
  intro u
  by_cases e : u = t
  · subst e
    show PcOk env s.cfg ((s.goto u pc).pc u)
    rw [goto_same]
    exact h
  · show PcOk env s.cfg ((s.goto t pc).pc u)
    rw [goto_other s pc e]
    exact i.pcs u

theorem step_ok {env : Env} {s : State} (i : Inv env s) (a : Act) (ha : Allowed env s a) (hc : Careful s a) : ∃ s', step env s a = .ok s' ∧ Inv env s' := by
  cases a with
  | begin t j => exact ⟨_, rfl, inv_goto i t (pc := .entry j) ha.2 _⟩
  | next t =>
    obtain ⟨pc', l, h1, h2⟩ := next_ok i.fine (i.pcs t) ha
    refine ⟨{ s.goto t pc' with hist := s.hist ++ l.map (Note.event t) ++ returned t pc' }, ?_, inv_goto i t h2 _⟩
    rw [step, h1, ok_bind]
  | set x =>
    obtain ⟨c', h1, h2, h3⟩ := change_ok i.fine x ha
    refine ⟨_, by rw [step, h1, ok_bind], h2, ?_⟩
    intro t
    show PcOk env c' (s.pc t)
    cases hd : dangerous x with
    | false => exact pc_gentle (h3 hd) (i.pcs t)
    | true => rw [hc hd t]; trivial

theorem start_inv {env : Env} {c : Config} (g : Fine env c) : Inv env (start c) := ⟨g, fun _ => trivial⟩

theorem reach_inv {env : Env} {c : Config} {s : State} (g : Fine env c) (h : Reach Careful env c s) : Inv env s := by
  induction h with
  | start => exact start_inv g
  | step _ ha hc hs ih =>
    obtain ⟨s'', h1, h2⟩ := step_ok ih _ ha hc
    rw [h1] at hs
    injection hs with hs
    rw [← hs]
    exact h2

/-! ### Every call returns -/

/-- The number of steps which remain -/
def measure (rank : Nat → Nat) : Pc → Nat
  | .idle => 0
  | .print .. => 1
  | .strftime .. => 2
  | .again .. => 3
  | .first .. => 4
  | .format .. => 5
  | .stamp .. => 6
  | .wrap .. => 7
  | .name .. => 7
  | .hideName .. => 8
  | .func _ => 9
  | .func2 _ => 10
  | .proc _ => 10
  | .hasProc _ => 11
  | .default _ => 12
  | .ownLevel .. => 12
  | .own .. => 13
  | .flags _ none => 14
  | .parent _ i => 4 * rank i + 15
  | .hasParent _ i => 4 * rank i + 16
  | .inherit _ i => 4 * rank i + 17
  | .flags _ (some i) => 4 * rank i + 18
  | .entry j => 4 * rank (j.module.getD 0) + 19

theorem enter_measure {env : Env} {c : Config} {rank : Nat → Nat} {j : Job} {p : Proc} {name : Option Str} {r : Pc × List Note}
    (h : enter env c j p name = .ok r) : measure rank r.1 ≤ 6 := by
  cases p with
  | stdout => injection h with h; subst h; exact Nat.le_refl 6
  | stderr => injection h with h; subst h; exact Nat.le_refl 6
  | glib => injection h with h; subst h; exact Nat.zero_le 6
  | other id => injection h with h; subst h; exact Nat.zero_le 6
  | syslog =>
    rw [enter] at h
    cases ho : Log.syslog env c name j.level j.msg with
    | error e => rw [ho] at h; cases h
    | ok o => rw [ho, ok_bind] at h; injection h with h; subst h; exact Nat.zero_le 6

theorem enterFunc_measure {env : Env} {c : Config} {rank : Nat → Nat} {j : Job} {p : Proc} {name : Option Str} {r : Pc × List Note}
    (h : enterFunc env c j p name = .ok r) : measure rank r.1 ≤ 6 := by
  rw [enterFunc] at h
  cases he : enter env c j p name with
  | error e => rw [he] at h; cases h
  | ok r' => rw [he, ok_bind] at h; injection h with h; subst h; exact enter_measure (r := r') he

theorem enter2_measure {rank : Nat → Nat} {j : Job} {p : Option Proc2} {r : Pc × List Note} (h : enter2 j p = .ok r) : measure rank r.1 ≤ 9 := by
  cases p with
  | none => cases h
  | some p => cases p <;> (injection h with h; subst h; simp [measure])

theorem compare_measure (rank : Nat → Nat) (j : Job) (max : Int) : measure rank (compare j max) ≤ 11 := by
  unfold compare
  split <;> simp [measure]

theorem next_measure {env : Env} {c : Config} {rank : Nat → Nat} (hr : ∀ (i : Nat) m p, c.modules[i]? = some m → m.parent = some p → rank p < rank i)
    {pc : Pc} {r : Pc × List Note} (h : next env c pc = .ok r) : measure rank r.1 < measure rank pc := by
  cases pc with
  | idle => cases h
  | entry j =>
    rw [next] at h
    injection h with h
    subst h
    dsimp only
    split
    · cases hm : j.module with
      | none => simp only [measure, hm]; omega
      | some i => simp only [measure, hm, Option.getD]; omega
    · simp only [measure]; omega
  | flags j check =>
    cases check with
    | none => injection h with h; subst h; simp [measure]
    | some i =>
      rw [next] at h
      cases hm : c.get i with
      | error e => rw [hm] at h; cases h
      | ok m =>
        rw [hm, ok_bind] at h
        injection h with h
        subst h
        dsimp only
        split <;> (simp only [measure]; omega)
  | inherit j i =>
    rw [next] at h
    cases hm : c.get i with
    | error e => rw [hm] at h; cases h
    | ok m =>
      rw [hm, ok_bind] at h
      injection h with h
      subst h
      dsimp only
      split <;> (simp only [measure]; omega)
  | hasParent j i =>
    rw [next] at h
    cases hm : c.get i with
    | error e => rw [hm] at h; cases h
    | ok m =>
      rw [hm, ok_bind] at h
      injection h with h
      subst h
      dsimp only
      split <;> (simp only [measure]; omega)
  | parent j i =>
    rw [next] at h
    cases hm : c.get i with
    | error e => rw [hm] at h; cases h
    | ok m =>
      rw [hm, ok_bind] at h
      injection h with h
      subst h
      dsimp only
      cases hp : m.parent with
      | none => simp only [measure]; omega
      | some p =>
        have := hr i m p (get_some hm) hp
        simp only [measure]
        omega
  | own j i =>
    rw [next] at h
    cases hm : c.get i with
    | error e => rw [hm] at h; cases h
    | ok m =>
      rw [hm, ok_bind] at h
      injection h with h
      subst h
      dsimp only
      split <;> (simp only [measure]; omega)
  | ownLevel j i =>
    rw [next] at h
    cases hm : c.get i with
    | error e => rw [hm] at h; cases h
    | ok m =>
      rw [hm, ok_bind] at h
      injection h with h
      subst h
      exact Nat.lt_succ_of_le (compare_measure rank j _)
  | default j =>
    rw [next] at h
    cases hm : c.get 0 with
    | error e => rw [hm] at h; cases h
    | ok m =>
      rw [hm, ok_bind] at h
      injection h with h
      subst h
      exact Nat.lt_succ_of_le (compare_measure rank j _)
  | hasProc j =>
    rw [next] at h
    cases hm : c.get j.target with
    | error e => rw [hm] at h; cases h
    | ok m =>
      rw [hm, ok_bind] at h
      injection h with h
      subst h
      dsimp only
      split <;> simp [measure]
  | proc j =>
    rw [next] at h
    cases hm : c.get j.target with
    | error e => rw [hm] at h; cases h
    | ok m =>
      rw [hm, ok_bind] at h
      exact Nat.lt_succ_of_le (enter2_measure h)
  | func2 j => exact Nat.lt_succ_of_le (enter2_measure h)
  | func j =>
    rw [next] at h
    split at h <;> (injection h with h; subst h; simp [measure])
  | hideName j p =>
    rw [next] at h
    cases hm : c.get j.target with
    | error e => rw [hm] at h; cases h
    | ok m =>
      rw [hm, ok_bind] at h
      split at h
      · exact Nat.lt_of_le_of_lt (enterFunc_measure h) (show 6 < 8 by omega)
      · injection h with h; subst h; simp [measure]
  | name j p =>
    rw [next] at h
    cases hm : c.get j.target with
    | error e => rw [hm] at h; cases h
    | ok m =>
      rw [hm, ok_bind] at h
      exact Nat.lt_succ_of_le (enterFunc_measure h)
  | wrap j p =>
    rw [next] at h
    cases hm : c.get j.target with
    | error e => rw [hm] at h; cases h
    | ok m =>
      rw [hm, ok_bind] at h
      exact Nat.lt_succ_of_le (enter_measure h)
  | stamp j err name =>
    injection h with h
    subst h
    dsimp only
    split <;> simp [measure]
  | format j err name => injection h with h; subst h; simp [measure]
  | first j err name f =>
    rw [next] at h
    cases hm : chars c f with
    | error e => rw [hm] at h; cases h
    | ok m =>
      rw [hm, ok_bind] at h
      injection h with h
      subst h
      dsimp only
      split <;> simp [measure]
  | again j err name => injection h with h; subst h; simp [measure]
  | strftime j err name f =>
    rw [next] at h
    cases hm : chars c f with
    | error e => rw [hm] at h; cases h
    | ok m =>
      rw [hm, ok_bind] at h
      cases ht : Log.stamp env m with
      | error e => rw [ht] at h; cases h
      | ok t => rw [ht, ok_bind] at h; injection h with h; subst h; simp [measure]
  | print j err name t =>
    rw [next] at h
    cases hm : Log.format j.msg with
    | error e => rw [hm] at h; cases h
    | ok m => rw [hm, ok_bind] at h; injection h with h; subst h; simp [measure]

theorem finish {env : Env} {rank : Nat → Nat} (t : Nat) : ∀ (n : Nat) (s : State), Inv env s →
    (∀ (i : Nat) m p, s.cfg.modules[i]? = some m → m.parent = some p → rank p < rank i) → measure rank (s.pc t) ≤ n →
    ∃ k s', k ≤ n ∧ exec env s (List.replicate k (.next t)) = .ok s' ∧ s'.pc t = .idle := by
  intro n
  induction n with
  | zero =>
    intro s _ _ hm
    refine ⟨0, s, Nat.le_refl _, rfl, ?_⟩
    have : measure rank (s.pc t) = 0 := Nat.le_zero.mp hm
    cases h : s.pc t with
    | idle => rfl
    | flags j check => rw [h] at this; cases check <;> simp [measure] at this
    | _ => rw [h] at this; simp [measure] at this
  | succ n ih =>
    intro s i hr hm
    by_cases h : s.pc t = .idle
    · exact ⟨0, s, Nat.zero_le _, rfl, h⟩
    · obtain ⟨s1, h1, h2⟩ := step_ok i (.next t) h trivial
      have h1' := h1
      rw [step] at h1
      cases hn : next env s.cfg (s.pc t) with
      | error e => rw [hn] at h1; cases h1
      | ok r =>
        rw [hn, ok_bind] at h1
        injection h1 with h1
        have hlt := next_measure hr hn
        have hc : s1.cfg = s.cfg := by rw [← h1]; rfl
        have hp : s1.pc t = r.1 := by rw [← h1]; exact goto_same s t r.1
        obtain ⟨k, s', hk, he, hf⟩ := ih s1 h2 (by rw [hc]; exact hr) (by rw [hp]; omega)
        refine ⟨k + 1, s', by omega, ?_, hf⟩
        rw [List.replicate_succ, exec, h1']
        exact he

end Verif.LogThreads
