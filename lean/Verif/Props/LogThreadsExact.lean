import Verif.Props.LogThreads
import Verif.Proof.LogThreadsSafe

/-!
# The only things which can go wrong if several threads use the log (C113)
-/

namespace Verif.LogThreads
open Verif.C
open Verif.Log (Module Proc Proc2 Out Env Ftime)

/-- There's a log function, or it has been taken away. -/
def HasFunc2 (c : Config) (b : List Event) : Prop := c.func2.isSome = true ∨ .set (.func2 none) ∈ b

/-- The module has a log function, or it has been taken away. -/
def HasProc (c : Config) (b : List Event) (j : Job) : Prop := ∀ m, c.modules[j.target]? = some m → m.proc.isSome = true ∨ .set (.proc j.target none) ∈ b

/-- The format can be used, or it has been replaced. -/
def HasPtr (env : Env) (c : Config) (b : List Event) (f : Ftime) : Prop :=
  PtrOk env c f ∨ (∃ g, .set (.format g) ∈ b) ∧ ∃ a, f = .at a ∧ a < c.heap.length

/-- The thread may go on unless something has been taken away since it began (`b` is what has happened). -/
def PcSo (env : Env) (c : Config) (b : List Event) : Pc → Prop
  | .idle => True
  | .entry j => JobOk c j
  | .flags j none => JobOk c j ∧ HasFunc2 c b
  | .flags j (some i) | .inherit j i | .hasParent j i | .parent j i | .own j i | .ownLevel j i => JobOk c j ∧ HasFunc2 c b ∧ i < c.modules.length
  | .default j | .hasProc j | .func2 j => JobOk c j ∧ HasFunc2 c b
  | .proc j => JobOk c j ∧ HasProc c b j
  | .func j => JobOk c j
  | .hideName j _ | .name j _ | .wrap j _ => JobOk c j
  | .stamp j _ _ | .format j _ _ | .again j _ _ | .print j _ _ _ => JobOk c j
  | .first j _ _ f | .strftime j _ _ f => JobOk c j ∧ HasPtr env c b f

/-- Why the thread has failed -/
def Because (e : UB) (j : Job) (b : List Event) : Prop :=
  e = .nullCall ∧ (.set (.func2 none) ∈ b ∨ .set (.proc (j.module.getD 0) none) ∈ b) ∨ e = .useAfterFree ∧ ∃ f, .set (.format f) ∈ b

theorem pc_so {env : Env} {c : Config} {b : List Event} {pc : Pc} (h : PcOk env c pc) : PcSo env c b pc := by
  cases pc with
  | flags j check =>
    cases check with
    | none => exact ⟨h.1, .inl h.2⟩
    | some i => exact ⟨h.1, .inl h.2.1, h.2.2⟩
  | inherit j i => exact ⟨h.1, .inl h.2.1, h.2.2⟩
  | hasParent j i => exact ⟨h.1, .inl h.2.1, h.2.2⟩
  | parent j i => exact ⟨h.1, .inl h.2.1, h.2.2⟩
  | own j i => exact ⟨h.1, .inl h.2.1, h.2.2⟩
  | ownLevel j i => exact ⟨h.1, .inl h.2.1, h.2.2⟩
  | default j => exact ⟨h.1, .inl h.2⟩
  | hasProc j => exact ⟨h.1, .inl h.2⟩
  | func2 j => exact ⟨h.1, .inl h.2⟩
  | proc j => exact ⟨h.1, fun m hm => .inl (h.2 m hm)⟩
  | first j err name f => exact ⟨h.1, .inl h.2⟩
  | strftime j err name f => exact ⟨h.1, .inl h.2⟩
  | _ => exact h

theorem so_more {env : Env} {c : Config} {b : List Event} (e : List Event) {pc : Pc} (h : PcSo env c b pc) : PcSo env c (b ++ e) pc := by
  have f2 : HasFunc2 c b → HasFunc2 c (b ++ e) := fun h => h.imp id (fun h => List.mem_append.2 (.inl h))
  have pr : ∀ j, HasProc c b j → HasProc c (b ++ e) j := fun j h m hm => (h m hm).imp id (fun h => List.mem_append.2 (.inl h))
  have pt : ∀ f, HasPtr env c b f → HasPtr env c (b ++ e) f := fun f h => h.imp id (fun ⟨⟨g, h1⟩, h2⟩ => ⟨⟨g, List.mem_append.2 (.inl h1)⟩, h2⟩)
  cases pc with
  | flags j check =>
    cases check with
    | none => exact ⟨h.1, f2 h.2⟩
    | some i => exact ⟨h.1, f2 h.2.1, h.2.2⟩
  | inherit j i => exact ⟨h.1, f2 h.2.1, h.2.2⟩
  | hasParent j i => exact ⟨h.1, f2 h.2.1, h.2.2⟩
  | parent j i => exact ⟨h.1, f2 h.2.1, h.2.2⟩
  | own j i => exact ⟨h.1, f2 h.2.1, h.2.2⟩
  | ownLevel j i => exact ⟨h.1, f2 h.2.1, h.2.2⟩
  | default j => exact ⟨h.1, f2 h.2⟩
  | hasProc j => exact ⟨h.1, f2 h.2⟩
  | func2 j => exact ⟨h.1, f2 h.2⟩
  | proc j => exact ⟨h.1, pr j h.2⟩
  | first j err name f => exact ⟨h.1, pt f h.2⟩
  | strftime j err name f => exact ⟨h.1, pt f h.2⟩
  | _ => exact h

/-- What's left of a configuration which is being changed -/
structure Keep (c c' : Config) (x : Setting) : Prop where
  modules : c'.modules.length = c.modules.length
  heap : (∀ g, x ≠ .format g) → c'.heap = c.heap
  room : c.heap.length ≤ c'.heap.length
  func2 : x ≠ .func2 none → c.func2.isSome = true → c'.func2.isSome = true
  procs : ∀ (i : Nat) m', c'.modules[i]? = some m' → ∃ m, c.modules[i]? = some m ∧ (x ≠ .proc i none → m.proc.isSome = true → m'.proc.isSome = true)

theorem keep_modify {c : Config} {x : Setting} (i : Nat) (f : Module → Module) (h : ∀ m, x ≠ .proc i none → m.proc.isSome = true → (f m).proc.isSome = true) : Keep c (modify c i f) x := by
  refine ⟨by simp [modify], fun _ => rfl, Nat.le_refl _, fun _ h => h, ?_⟩
  intro k m' hm'
  obtain ⟨m, h1, h2⟩ := modify_at hm'
  refine ⟨m, h1, ?_⟩
  rcases h2 with h2 | ⟨h2, h3⟩
  · rw [h2]; exact fun _ => id
  · subst h3; rw [h2]; exact h m

theorem setFormat_heap {c c' : Config} {f : Option Str} (h : Log.setTimestampFormat c f = .ok c') : c.heap.length ≤ c'.heap.length := by
  have free : ∀ {x y : Heap} {p : Option Nat}, gfree x p = .ok y → y.length = x.length := by
    intro x y p h
    unfold gfree at h
    split at h
    · cases h; rfl
    · split at h <;> cases h
      simp
  unfold Log.setTimestampFormat at h
  split at h
  · rename_i f
    cases h1 : Log.cmpCustom c f with
    | error e => rw [h1, error_bind] at h; cases h
    | ok v =>
      rw [h1, ok_bind] at h
      split at h
      · dsimp only at h
        cases h2 : gfree (c.heap ++ [some f]) c.custom with
        | error e => rw [h2, error_bind] at h; cases h
        | ok y =>
          rw [h2, ok_bind] at h
          cases h
          have := free h2
          simp at this
          dsimp only
          omega
      · cases h; exact Nat.le_refl _
  · split at h
    · rename_i a _
      cases h2 : gfree c.heap (some a) with
      | error e => rw [h2, error_bind] at h; cases h
      | ok y =>
        rw [h2, ok_bind] at h
        cases h
        have := free h2
        dsimp only
        omega
    · cases h; exact Nat.le_refl _

theorem change_keep {env : Env} {s : State} (g : Fine env s.cfg) {x : Setting} {c' : Config} (h : change s.cfg x = .ok c') : Keep s.cfg c' x := by
  have same : ∀ x, Keep s.cfg s.cfg x := fun x => ⟨rfl, fun _ => rfl, Nat.le_refl _, fun _ h => h, fun i m' h => ⟨m', h, fun _ => id⟩⟩
  cases x with
  | func p => cases h; exact ⟨rfl, fun _ => rfl, Nat.le_refl _, fun _ h => h, (same (.func p)).procs⟩
  | func2 p =>
    cases h
    refine ⟨rfl, fun _ => rfl, Nat.le_refl _, fun hx _ => ?_, (same (.func2 p)).procs⟩
    cases p with
    | none => exact absurd rfl hx
    | some p => rfl
  | timestamp b => cases h; exact ⟨rfl, fun _ => rfl, Nat.le_refl _, fun _ h => h, (same (.timestamp b)).procs⟩
  | tid b => cases h; exact ⟨rfl, fun _ => rfl, Nat.le_refl _, fun _ h => h, (same (.tid b)).procs⟩
  | proc i p =>
    cases h
    refine keep_modify i _ (fun m hx _ => ?_)
    cases p with
    | none => exact absurd rfl hx
    | some p => rfl
  | level i l => cases h; exact keep_modify i _ (fun _ _ h => h)
  | parent i p => cases h; exact keep_modify i _ (fun _ _ h => h)
  | flags i a b => cases h; exact keep_modify i _ (fun _ _ h => h)
  | name i n => cases h; exact keep_modify i _ (fun _ _ h => h)
  | format f =>
    have h : Log.setTimestampFormat s.cfg f = .ok c' := h
    obtain ⟨cur, h5, _⟩ := g.fmt
    obtain ⟨s1, e1, _, e3⟩ := Log.setFormat_ok s.cfg cur f h5
    rw [h] at e1
    cases e1
    have hm : c'.modules = s.cfg.modules := by injection e3
    have hf : c'.func2 = s.cfg.func2 := by injection e3
    exact ⟨by rw [hm], fun hx => absurd rfl (hx f), setFormat_heap h, fun _ h => by rw [hf]; exact h, fun i m' hm' => ⟨m', by rw [← hm]; exact hm', fun _ => id⟩⟩

theorem so_keep {env : Env} {c c' : Config} {x : Setting} (k : Keep c c' x) {b : List Event} {pc : Pc} (h : PcSo env c b pc) : PcSo env c' (b ++ [.set x]) pc := by
  have hj : ∀ {j}, JobOk c j → JobOk c' j := fun h => ⟨by rw [k.modules]; exact h.1, h.2⟩
  have hl : ∀ {i}, i < c.modules.length → i < c'.modules.length := fun h => by rw [k.modules]; exact h
  have f2 : HasFunc2 c b → HasFunc2 c' (b ++ [.set x]) := by
    rintro (h | h)
    · rcases Classical.em (x = .func2 none) with hx | hx
      · exact .inr (by simp [hx])
      · exact .inl (k.func2 hx h)
    · exact .inr (List.mem_append.2 (.inl h))
  have pr : ∀ {j}, HasProc c b j → HasProc c' (b ++ [.set x]) j := by
    intro j h m' hm'
    obtain ⟨m, hm, himp⟩ := k.procs _ m' hm'
    rcases h m hm with h | h
    · rcases Classical.em (x = .proc j.target none) with hx | hx
      · exact .inr (by simp [hx])
      · exact .inl (himp hx h)
    · exact .inr (List.mem_append.2 (.inl h))
  have pt : ∀ {f}, HasPtr env c b f → HasPtr env c' (b ++ [.set x]) f := by
    rintro f (⟨t, h1, h2⟩ | ⟨⟨g, h1⟩, a, h2, h3⟩)
    · rcases Classical.em (∃ g, x = .format g) with ⟨g, hx⟩ | hx
      · cases f with
        | default => exact .inl ⟨t, h1, h2⟩
        | «at» a =>
          refine .inr ⟨⟨g, by simp [hx]⟩, a, rfl, Nat.lt_of_lt_of_le ?_ k.room⟩
          unfold chars str at h1
          dsimp only at h1
          cases ha : c.heap[a]? with
          | none => rw [ha] at h1; cases h1
          | some v => exact (List.getElem?_eq_some_iff.mp ha).1
      · refine .inl ⟨t, ?_, h2⟩
        rw [← h1]
        cases f with
        | default => rfl
        | «at» a => rw [chars, chars, k.heap (fun g e => hx ⟨g, e⟩)]
    · exact .inr ⟨⟨g, List.mem_append.2 (.inl h1)⟩, a, h2, Nat.lt_of_lt_of_le h3 k.room⟩
  cases pc with
  | idle => trivial
  | flags j check =>
    cases check with
    | none => exact ⟨hj h.1, f2 h.2⟩
    | some i => exact ⟨hj h.1, f2 h.2.1, hl h.2.2⟩
  | inherit j i => exact ⟨hj h.1, f2 h.2.1, hl h.2.2⟩
  | hasParent j i => exact ⟨hj h.1, f2 h.2.1, hl h.2.2⟩
  | parent j i => exact ⟨hj h.1, f2 h.2.1, hl h.2.2⟩
  | own j i => exact ⟨hj h.1, f2 h.2.1, hl h.2.2⟩
  | ownLevel j i => exact ⟨hj h.1, f2 h.2.1, hl h.2.2⟩
  | default j => exact ⟨hj h.1, f2 h.2⟩
  | hasProc j => exact ⟨hj h.1, f2 h.2⟩
  | func2 j => exact ⟨hj h.1, f2 h.2⟩
  | proc j => exact ⟨hj h.1, pr h.2⟩
  | first j err name f => exact ⟨hj h.1, pt h.2⟩
  | strftime j err name f => exact ⟨hj h.1, pt h.2⟩
  | _ => exact hj h

theorem live_current {env : Env} {c : Config} (g : Fine env c) {a : Nat} {f : Str} (h : c.heap[a]? = some (some f)) : (env.strftime f).length < 32 := by
  obtain ⟨cur, h1, h2⟩ := g.fmt
  have two : ∀ (l : List (Option Str)) (a b : Nat) (x y : Str), l[a]? = some (some x) → l[b]? = some (some y) → l.countP Option.isSome ≤ 1 → a = b := by
    intro l
    induction l with
    | nil => intro a b x y h; simp at h
    | cons v t ih =>
      intro a b x y ha hb hc
      have one : ∀ (k : Nat) (z : Str), t[k]? = some (some z) → 0 < t.countP Option.isSome := by
        intro k z hk
        exact List.countP_pos_iff.2 ⟨some z, List.mem_of_getElem? hk, rfl⟩
      cases a with
      | zero =>
        cases b with
        | zero => rfl
        | succ b =>
          simp at ha hb
          have := one b y hb
          rw [List.countP_cons, ha, if_pos Option.isSome_some] at hc
          omega
      | succ a =>
        cases b with
        | zero =>
          simp at ha hb
          have := one a x ha
          rw [List.countP_cons, hb, if_pos Option.isSome_some] at hc
          omega
        | succ b =>
          simp at ha hb
          rw [ih a b x y ha hb (by rw [List.countP_cons] at hc; omega)]
  cases cur with
  | none =>
    have : 0 < c.heap.countP Option.isSome := List.countP_pos_iff.2 ⟨some f, List.mem_of_getElem? h, rfl⟩
    have := h1.2.2
    omega
  | some f' =>
    obtain ⟨a', _, _, h3, h4⟩ := h1
    have := two _ _ _ _ _ h h3 (by omega)
    subst this
    rw [h3] at h
    have e : f' = f := by injection h with h; injection h
    rw [← e]
    exact h2 f' rfl

theorem chars_so {env : Env} {c : Config} (g : Fine env c) {b : List Event} {f : Ftime} (h : HasPtr env c b f) :
    (∃ t, chars c f = .ok t ∧ (env.strftime t).length < 32) ∨ chars c f = .error .useAfterFree ∧ ∃ g, .set (.format g) ∈ b := by
  rcases h with h | ⟨hb, a, rfl, ha⟩
  · exact .inl h
  · unfold chars str
    dsimp only
    have e := List.getElem?_eq_getElem ha
    cases hv : c.heap[a] with
    | none => rw [hv] at e; rw [e]; exact .inr ⟨rfl, hb⟩
    | some t => rw [hv] at e; rw [e]; exact .inl ⟨t, rfl, live_current g e⟩

/-- The thread goes on, or fails because of something that has been taken away. -/
theorem next_so {env : Env} {c : Config} (g : Fine env c) {b : List Event} {pc : Pc} {j : Job} (hj : jobOf pc = some j) (h : PcSo env c b pc) :
    (∃ pc' l, next env c pc = .ok (pc', l) ∧ PcSo env c b pc') ∨ ∃ e, next env c pc = .error e ∧ Because e j b := by
  have easy : PcOk env c pc → pc ≠ .idle → (∃ pc' l, next env c pc = .ok (pc', l) ∧ PcSo env c b pc') ∨ ∃ e, next env c pc = .error e ∧ Because e j b := by
    intro h hi
    obtain ⟨pc', l, h1, h2⟩ := next_ok g h hi
    exact .inl ⟨pc', l, h1, pc_so h2⟩
  have cmp : ∀ {k max}, JobOk c k → HasFunc2 c b → PcSo env c b (compare k max) := by
    intro k max h1 h2
    unfold compare
    split
    · exact ⟨h1, h2⟩
    · trivial
  cases pc with
  | idle => cases hj
  | entry k => exact easy h (by simp)
  | func k => exact easy h (by simp)
  | hideName k p => exact easy h (by simp)
  | name k p => exact easy h (by simp)
  | wrap k p => exact easy h (by simp)
  | stamp k err name => exact easy h (by simp)
  | format k err name => exact easy h (by simp)
  | again k err name => exact easy h (by simp)
  | print k err name t => exact easy h (by simp)
  | flags k check =>
    cases check with
    | none => exact .inl ⟨_, _, rfl, h⟩
    | some i =>
      obtain ⟨m, hm, hg⟩ := get_lt h.2.2
      rw [next, hg, ok_bind]
      refine .inl ⟨_, _, rfl, ?_⟩
      split
      · trivial
      · exact h
  | inherit k i =>
    obtain ⟨m, hm, hg⟩ := get_lt h.2.2
    rw [next, hg, ok_bind]
    refine .inl ⟨_, _, rfl, ?_⟩
    split <;> exact h
  | hasParent k i =>
    obtain ⟨m, hm, hg⟩ := get_lt h.2.2
    rw [next, hg, ok_bind]
    refine .inl ⟨_, _, rfl, ?_⟩
    split <;> exact h
  | parent k i =>
    obtain ⟨m, hm, hg⟩ := get_lt h.2.2
    rw [next, hg, ok_bind]
    refine .inl ⟨_, _, rfl, ?_⟩
    cases hp : m.parent with
    | none => exact ⟨h.1, h.2.1⟩
    | some p => exact ⟨h.1, h.2.1, g.parent i m p hm hp⟩
  | own k i =>
    obtain ⟨m, hm, hg⟩ := get_lt h.2.2
    rw [next, hg, ok_bind]
    refine .inl ⟨_, _, rfl, ?_⟩
    split
    · exact h
    · exact ⟨h.1, h.2.1⟩
  | ownLevel k i =>
    obtain ⟨m, hm, hg⟩ := get_lt h.2.2
    rw [next, hg, ok_bind]
    exact .inl ⟨_, _, rfl, cmp h.1 h.2.1⟩
  | default k =>
    obtain ⟨m, hm, hg⟩ := get_lt g.ne
    rw [next, hg, ok_bind]
    exact .inl ⟨_, _, rfl, cmp h.1 h.2⟩
  | hasProc k =>
    obtain ⟨m, hm, hg⟩ := get_lt h.1.1
    rw [next, hg, ok_bind]
    refine .inl ⟨_, _, rfl, ?_⟩
    split
    · rename_i hp
      refine ⟨h.1, fun m' hm' => ?_⟩
      rw [hm] at hm'
      cases hm'
      exact .inl hp
    · exact h
  | proc k =>
    cases hj
    obtain ⟨m, hm, hg⟩ := get_lt h.1.1
    rw [next, hg, ok_bind]
    cases hp : m.proc with
    | none =>
      refine .inr ⟨_, rfl, .inl ⟨rfl, .inr ?_⟩⟩
      rcases h.2 m hm with h2 | h2
      · rw [hp] at h2; cases h2
      · exact h2
    | some p =>
      obtain ⟨pc', l, h1, h2⟩ := enter2_ok (env := env) h.1 p
      exact .inl ⟨pc', l, h1, pc_so h2⟩
  | func2 k =>
    cases hj
    rw [next]
    cases hp : c.func2 with
    | none =>
      refine .inr ⟨_, rfl, .inl ⟨rfl, .inl ?_⟩⟩
      rcases h.2 with h2 | h2
      · rw [hp] at h2; cases h2
      · exact h2
    | some p =>
      obtain ⟨pc', l, h1, h2⟩ := enter2_ok (env := env) h.1 p
      exact .inl ⟨pc', l, h1, pc_so h2⟩
  | first k err name f =>
    rcases chars_so g h.2 with ⟨t, ht, _⟩ | ⟨ht, hb⟩
    · rw [next, ht, ok_bind]
      refine .inl ⟨_, _, rfl, ?_⟩
      split <;> exact h.1
    · rw [next, ht, error_bind]
      exact .inr ⟨_, rfl, .inr ⟨rfl, hb⟩⟩
  | strftime k err name f =>
    rcases chars_so g h.2 with ⟨t, ht, hl⟩ | ⟨ht, hb⟩
    · rw [next, ht, ok_bind, Log.stamp, if_pos hl, ok_bind]
      exact .inl ⟨_, _, rfl, h.1⟩
    · rw [next, ht, error_bind]
      exact .inr ⟨_, rfl, .inr ⟨rfl, hb⟩⟩

/-- What's always true, whatever is changed and when -/
structure InvSo (env : Env) (s : State) : Prop where
  fine : Fine env s.cfg
  pcs : ∀ t, s.pc t ≠ .idle → ∃ j a b, During t s.hist j a b ∧ jobOf (s.pc t) = some j ∧ PcSo env s.cfg b (s.pc t)

theorem step_so {env : Env} {s : State} (i : InvSo env s) (a : Act) (ha : Allowed env s a) :
    (∃ s', step env s a = .ok s' ∧ InvSo env s') ∨ ∃ t j before during e, a = .next t ∧ step env s a = .error e ∧ During t s.hist j before during ∧ Because e j during := by
  cases a with
  | begin t j =>
    refine .inl ⟨_, rfl, i.fine, fun u hu => ?_⟩
    by_cases e : u = t
    · subst e
      refine ⟨j, s.hist, [], ⟨rfl, by simp⟩, ?_, ?_⟩
      · show jobOf ((s.goto u (.entry j)).pc u) = _
        rw [goto_same]
        rfl
      · show PcSo env s.cfg [] ((s.goto u (.entry j)).pc u)
        rw [goto_same]
        exact ha.2
    · have e2 : (s.goto t (.entry j)).pc u = s.pc u := goto_other s _ e
      have hu : (s.goto t (.entry j)).pc u ≠ .idle := hu
      rw [e2] at hu
      obtain ⟨k, a, b, h1, h2, h3⟩ := i.pcs u hu
      refine ⟨k, a, b ++ [.began t j], during_append h1 (by simpa using fun h => (e h).elim), ?_, ?_⟩
      · show jobOf ((s.goto t (.entry j)).pc u) = _
        rw [e2]
        exact h2
      · show PcSo env s.cfg _ ((s.goto t (.entry j)).pc u)
        rw [e2]
        exact so_more _ h3
  | next t =>
    obtain ⟨j, a, b, h1, h2, h3⟩ := i.pcs t ha
    rcases next_so i.fine h2 h3 with ⟨pc', l, e, h4⟩ | ⟨e, h4, h5⟩
    · have hs : step env s (.next t) = .ok { s.goto t pc' with hist := s.hist ++ l.map (Note.event t) ++ returned t pc' } := by rw [step, e, ok_bind]
      have hev : s.hist ++ l.map (Note.event t) ++ returned t pc' = s.hist ++ events t (pc', l) := by rw [List.append_assoc]; rfl
      refine .inl ⟨_, hs, i.fine, fun u hu => ?_⟩
      by_cases eu : u = t
      · subst eu
        have e2 : (s.goto u pc').pc u = pc' := goto_same s u pc'
        have hu : (s.goto u pc').pc u ≠ .idle := hu
        rw [e2] at hu
        have hd : During u (s.hist ++ events u (pc', l)) j a (b ++ events u (pc', l)) := during_append h1 (fun k => events_began u u _ k)
        refine ⟨j, a, b ++ events u (pc', l), by show During u (s.hist ++ _ ++ _) _ _ _; rw [hev]; exact hd, ?_, ?_⟩
        · show jobOf ((s.goto u pc').pc u) = _
          rw [e2]
          rcases (next_effect e h2).2 with h6 | h6
          · obtain ⟨k, hk⟩ := job_idle hu
            rw [hk] at h6
            cases h6
          · exact h6
        · show PcSo env s.cfg _ ((s.goto u pc').pc u)
          rw [e2]
          exact so_more _ h4
      · have e2 : (s.goto t pc').pc u = s.pc u := goto_other s pc' eu
        have hu : (s.goto t pc').pc u ≠ .idle := hu
        rw [e2] at hu
        obtain ⟨k, a, b, h1, h2, h3⟩ := i.pcs u hu
        have hd : During u (s.hist ++ events t (pc', l)) k a (b ++ events t (pc', l)) := during_append h1 (fun k => events_began t u _ k)
        refine ⟨k, a, b ++ events t (pc', l), by show During u (s.hist ++ _ ++ _) _ _ _; rw [hev]; exact hd, ?_, ?_⟩
        · show jobOf ((s.goto t pc').pc u) = _
          rw [e2]
          exact h2
        · show PcSo env s.cfg _ ((s.goto t pc').pc u)
          rw [e2]
          exact so_more _ h3
    · exact .inr ⟨t, j, a, b, e, rfl, by rw [step, h4, error_bind], h1, h5⟩
  | set x =>
    obtain ⟨c', h1, h2, _⟩ := change_ok i.fine x ha
    refine .inl ⟨_, by rw [step, h1, ok_bind], h2, fun t ht => ?_⟩
    obtain ⟨j, a, b, h4, h5, h6⟩ := i.pcs t ht
    exact ⟨j, a, b ++ [.set x], during_append h4 (by simp), h5, so_keep (change_keep i.fine h1) h6⟩

theorem reach_so {P : State → Act → Prop} {env : Env} {c : Config} {s : State} (g : Fine env c) (h : Reach P env c s) : InvSo env s := by
  induction h with
  | start => exact ⟨g, fun t h => absurd rfl h⟩
  | step _ ha _ hs ih =>
    rcases step_so ih _ ha with ⟨s'', h1, h2⟩ | ⟨t, j, a, b, e, _, h1, _⟩
    · rw [h1] at hs
      cases hs
      exact h2
    · rw [h1] at hs
      cases hs

/-- C113. Whatever is changed and when, in whatever order threads run, there are only two things which can go wrong: a thread calls a log function which somebody has
set to `NULL` since the thread called `gutil_log`, or uses the format of timestamps which somebody has replaced since then. A thread is safe as long as neither happens
during its own call; other threads don't matter. -/
theorem C113_exactly {env : Env} {dflt : Int} {others : List Module} {s : State} (hp : ∀ m ∈ others, ∀ p, m.parent = some p → p ≤ others.length)
    (hd : (env.strftime (Log.Spec.ascii "%Y-%m-%d %H:%M:%S ")).length < 32) (h : AnyReach env (Log.initial dflt others) s) (a : Act) (ha : Allowed env s a) :
    (∃ s', step env s a = .ok s') ∨
    ∃ t j before during e, a = .next t ∧ step env s a = .error e ∧ During t s.hist j before during ∧
      (e = .nullCall ∧ (.set (.func2 none) ∈ during ∨ .set (.proc (j.module.getD 0) none) ∈ during) ∨ e = .useAfterFree ∧ ∃ f, .set (.format f) ∈ during) := by
  rcases step_so (reach_so (fine_initial hp hd) h) a ha with ⟨s', h1, _⟩ | h1
  · exact .inl ⟨s', h1⟩
  · exact .inr h1

/-- A thread goes on safely even though `gutil_log_func2` is set to `NULL`, and the format is replaced, while another thread is logging something; that other thread then
calls `NULL`, and both settings are a part of its own call. -/
example : ∃ s, AnyReach exampleEnv (exampleConfig none) s ∧ (∃ a b, During 0 s.hist bye a b ∧ .set (.func2 none) ∈ b) ∧
    (∃ a, During 1 s.hist hello a []) ∧ Allowed exampleEnv s (.next 0) ∧ step exampleEnv s (.next 0) = .error .nullCall ∧
    Allowed exampleEnv s (.next 1) ∧ ∃ s', step exampleEnv s (.next 1) = .ok s' := by
  obtain ⟨s, h1, h2⟩ := leads_any (env := exampleEnv) (c := exampleConfig none)
    (q := fun s => decide (s.hist = [.began 0 bye, .set (.func2 none), .set (.format none), .set (.func2 (some (.other 1))), .set (.func2 none), .began 1 hello]) &&
      willFail exampleEnv 0 .nullCall s && decide (s.pc 1 = .entry hello))
    [.begin 0 bye, .next 0, .set (.func2 none), .set (.format none), .set (.func2 (some (.other 1))), .set (.func2 none), .next 0, .next 0, .next 0, .begin 1 hello]
    (by decide +kernel)
  rw [Bool.and_eq_true, Bool.and_eq_true] at h2
  obtain ⟨⟨h3, h4⟩, h5⟩ := h2
  obtain ⟨h6, h7⟩ := willFail_iff h4
  have hh := of_decide_eq_true h3
  have hp := of_decide_eq_true h5
  have ha : Allowed exampleEnv s (.next 1) := by show s.pc 1 ≠ .idle; rw [hp]; simp
  have h1d : During 1 s.hist hello [.began 0 bye, .set (.func2 none), .set (.format none), .set (.func2 (some (.other 1))), .set (.func2 none)] [] := ⟨by rw [hh]; rfl, by simp⟩
  refine ⟨s, h1, ⟨[], [.set (.func2 none), .set (.format none), .set (.func2 (some (.other 1))), .set (.func2 none), .began 1 hello], ⟨hh, by simp⟩, by simp⟩,
    ⟨_, h1d⟩, h6, h7, ha, ?_⟩
  rw [step, hp, next]
  exact ⟨_, rfl⟩

end Verif.LogThreads
