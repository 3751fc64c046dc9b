import Verif.Proof.LogThreadsHist

namespace Verif.LogThreads
open Verif.C
open Verif.Log (Module Proc Proc2 Out Env Ftime)

/-! ### What's added to the history -/

theorem job_idle {pc : Pc} (h : pc ≠ .idle) : ∃ j, jobOf pc = some j := by
  cases pc with
  | idle => exact absurd rfl h
  | _ => exact ⟨_, rfl⟩

theorem next_shape {env : Env} {s s' : State} {t : Nat} (h : step env s (.next t) = .ok s') : ∃ r, next env s.cfg (s.pc t) = .ok r ∧
    s' = { s.goto t r.1 with hist := s.hist ++ (r.2.map (Note.event t) ++ returned t r.1) } := by
  rw [step] at h
  cases hn : next env s.cfg (s.pc t) with
  | error e => rw [hn] at h; cases h
  | ok r =>
    rw [hn, ok_bind] at h
    injection h with h
    refine ⟨r, rfl, ?_⟩
    rw [← h, List.append_assoc]

theorem set_shape {env : Env} {s s' : State} {x : Setting} (h : step env s (.set x) = .ok s') : ∃ c, change s.cfg x = .ok c ∧
    s' = { s with cfg := c, hist := s.hist ++ [.set x] } := by
  rw [step] at h
  cases hn : change s.cfg x with
  | error e => rw [hn] at h; cases h
  | ok c =>
    rw [hn, ok_bind] at h
    injection h with h
    exact ⟨c, rfl, h.symm⟩

theorem split_hist {α : Type} {h e pre post : List α} {x : α} (hs : h ++ e = pre ++ x :: post) :
    (∃ q, h = pre ++ x :: q) ∨ ∃ e1, pre = h ++ e1 ∧ e = e1 ++ x :: post := by
  rw [List.append_eq_append_iff] at hs
  rcases hs with ⟨a, h1, h2⟩ | ⟨c, h1, h2⟩
  · exact .inr ⟨a, h1, h2⟩
  · cases c with
    | nil => exact .inr ⟨[], by rw [h1, List.append_nil, List.append_nil], by rw [List.nil_append]; exact h2.symm⟩
    | cons y c =>
      injection h2 with h3 h4
      subst h3
      exact .inl ⟨c, h1⟩

theorem during_append {t : Nat} {h e : List Event} {j : Job} {a b : List Event} (hd : During t h j a b) (he : ∀ k, Event.began t k ∉ e) : During t (h ++ e) j a (b ++ e) := by
  refine ⟨by rw [hd.1, List.append_assoc, List.cons_append], ?_⟩
  intro k hk
  rcases List.mem_append.mp hk with hk | hk
  · exact hd.2 k hk
  · exact he k hk

theorem during_split {t : Nat} {h e : List Event} {j : Job} {a b : List Event} (hd : During t (h ++ e) j a b) (he : ∀ k, Event.began t k ∉ e) :
    ∃ b', During t h j a b' ∧ b = b' ++ e := by
  rcases split_hist hd.1 with ⟨q, hq⟩ | ⟨e1, _, h2⟩
  · have hb : b = q ++ e := by
      have := hd.1
      rw [hq, List.append_assoc, List.cons_append] at this
      have := List.append_cancel_left this
      injection this with _ this
      exact this.symm
    refine ⟨q, ⟨hq, ?_⟩, hb⟩
    intro k hk
    exact hd.2 k (by rw [hb]; exact List.mem_append_left _ hk)
  · exact absurd (by rw [h2]; simp) (he j)

/-- Events of a step of the thread -/
def events (t : Nat) (r : Pc × List Note) : List Event := r.2.map (Note.event t) ++ returned t r.1

theorem mem_events {t : Nat} {r : Pc × List Note} {x : Event} (h : x ∈ events t r) : (∃ n ∈ r.2, Note.event t n = x) ∨ x = .ended t := by
  rcases List.mem_append.mp h with h | h
  · exact .inl (List.mem_map.mp h)
  · right
    unfold returned at h
    split at h
    · exact List.mem_singleton.mp h
    · cases h

theorem events_began (t u : Nat) (r : Pc × List Note) (k : Job) : Event.began u k ∉ events t r := by
  intro h
  rcases mem_events h with ⟨n, _, hn⟩ | hn
  · cases n <;> cases hn
  · cases hn

theorem events_set (t : Nat) (r : Pc × List Note) (x : Setting) : Event.set x ∉ events t r := by
  intro h
  rcases mem_events h with ⟨n, _, hn⟩ | hn
  · cases n <;> cases hn
  · cases hn

theorem events_out {t u : Nat} {r : Pc × List Note} {o : Out} (h : Event.out u o ∈ events t r) : u = t ∧ .out o ∈ r.2 := by
  rcases mem_events h with ⟨n, hm, hn⟩ | hn
  · cases n with
    | out o' => injection hn with h1 h2; subst h2; exact ⟨h1.symm, hm⟩
    | called2 => cases hn
    | called => cases hn
  · cases hn

theorem events_called {t u : Nat} {r : Pc × List Note} {p : Proc} (h : Event.called u p ∈ events t r) : u = t ∧ .called p ∈ r.2 := by
  rcases mem_events h with ⟨n, hm, hn⟩ | hn
  · cases n with
    | called o' => injection hn with h1 h2; subst h2; exact ⟨h1.symm, hm⟩
    | called2 => cases hn
    | out => cases hn
  · cases hn

theorem events_called2 {t u i : Nat} {r : Pc × List Note} {p : Proc2} (h : Event.called2 u i p ∈ events t r) : u = t ∧ .called2 i p ∈ r.2 := by
  rcases mem_events h with ⟨n, hm, hn⟩ | hn
  · cases n with
    | called2 i' o' => injection hn with h1 h2 h3; subst h2; subst h3; exact ⟨h1.symm, hm⟩
    | called => cases hn
    | out => cases hn
  · cases hn

theorem outs_append (t : Nat) (a b : List Event) : outs t (a ++ b) = outs t a ++ outs t b := List.filterMap_append

theorem jobs_append (t : Nat) (a b : List Event) : jobs t (a ++ b) = jobs t a ++ jobs t b := List.filterMap_append

theorem outs_events_same (t : Nat) (r : Pc × List Note) : outs t (events t r) = noteOuts r.2 := by
  unfold events
  rw [outs_append]
  have h2 : outs t (returned t r.1) = [] := by unfold returned; split <;> rfl
  rw [h2, List.append_nil]
  clear h2
  obtain ⟨pc, l⟩ := r
  dsimp only
  induction l with
  | nil => rfl
  | cons n l ih =>
    rw [List.map_cons, outs, List.filterMap_cons, noteOuts, List.filterMap_cons]
    cases n with
    | out o => simp only [Note.event, if_true]; exact congrArg (o :: ·) ih
    | called => exact ih
    | called2 => exact ih

theorem outs_events_other {t u : Nat} (h : u ≠ t) (r : Pc × List Note) : outs t (events u r) = [] := by
  unfold outs
  rw [List.filterMap_eq_nil_iff]
  intro e he
  cases e with
  | out v o =>
    obtain ⟨h1, _⟩ := events_out he
    dsimp only
    rw [if_neg (by rw [h1]; exact h)]
  | _ => rfl

theorem jobs_events (t u : Nat) (r : Pc × List Note) : jobs t (events u r) = [] := by
  unfold jobs
  rw [List.filterMap_eq_nil_iff]
  intro e he
  cases e with
  | began v j => exact absurd he (events_began u v r j)
  | _ => rfl

/-! ### Values of variables -/

theorem funcAt_append (f : Option Proc) (a b : List Event) : funcAt f (a ++ b) = funcAt (funcAt f a) b := List.foldl_append

theorem func2At_append (f : Option Proc2) (a b : List Event) : func2At f (a ++ b) = func2At (func2At f a) b := List.foldl_append

theorem procAt_append (i : Nat) (f : Option Proc2) (a b : List Event) : procAt i f (a ++ b) = procAt i (procAt i f a) b := List.foldl_append

theorem funcAt_none (f : Option Proc) (h : List Event) (hn : ∀ x, Event.set x ∉ h) : funcAt f h = f := by
  induction h with
  | nil => rfl
  | cons e h ih =>
    have := ih (fun x hx => hn x (List.mem_cons_of_mem _ hx))
    cases e with
    | set x => exact absurd (List.mem_cons_self ..) (hn x)
    | _ => exact this

theorem func2At_none (f : Option Proc2) (h : List Event) (hn : ∀ x, Event.set x ∉ h) : func2At f h = f := by
  induction h with
  | nil => rfl
  | cons e h ih =>
    have := ih (fun x hx => hn x (List.mem_cons_of_mem _ hx))
    cases e with
    | set x => exact absurd (List.mem_cons_self ..) (hn x)
    | _ => exact this

theorem procAt_none (i : Nat) (f : Option Proc2) (h : List Event) (hn : ∀ x, Event.set x ∉ h) : procAt i f h = f := by
  induction h with
  | nil => rfl
  | cons e h ih =>
    have := ih (fun x hx => hn x (List.mem_cons_of_mem _ hx))
    cases e with
    | set x => exact absurd (List.mem_cons_self ..) (hn x)
    | _ => exact this

theorem setFormat_rest {c c' : Config} {f : Option Str} (h : Log.setTimestampFormat c f = .ok c') :
    c'.func = c.func ∧ c'.func2 = c.func2 ∧ c'.modules = c.modules := by
  unfold Log.setTimestampFormat at h
  cases f with
  | some f =>
    dsimp only at h
    cases hr : Log.cmpCustom c f with
    | error e => rw [hr] at h; cases h
    | ok n =>
      rw [hr, ok_bind] at h
      split at h
      · cases hg : gfree (c.heap ++ [some f]) c.custom with
        | error e => rw [hg] at h; cases h
        | ok hp => rw [hg, ok_bind] at h; injection h with h; subst h; exact ⟨rfl, rfl, rfl⟩
      · injection h with h; subst h; exact ⟨rfl, rfl, rfl⟩
  | none =>
    dsimp only at h
    split at h
    · rename_i a _
      cases hg : gfree c.heap (some a) with
      | error e => rw [hg] at h; cases h
      | ok hp => rw [hg, ok_bind] at h; injection h with h; subst h; exact ⟨rfl, rfl, rfl⟩
    · injection h with h; subst h; exact ⟨rfl, rfl, rfl⟩

/-- The values of variables are those which have been set last. -/
structure Vars (c0 : Config) (c : Config) (h : List Event) : Prop where
  func : c.func = funcAt c0.func h
  func2 : c.func2 = func2At c0.func2 h
  proc : ∀ (i : Nat) m, c.modules[i]? = some m → ∃ m0, c0.modules[i]? = some m0 ∧ m.proc = procAt i m0.proc h

theorem vars_quiet {c0 c : Config} {h : List Event} (v : Vars c0 c h) (e : List Event) (he : ∀ x, Event.set x ∉ e) : Vars c0 c (h ++ e) := by
  refine ⟨?_, ?_, ?_⟩
  · rw [funcAt_append, funcAt_none _ e he]; exact v.func
  · rw [func2At_append, func2At_none _ e he]; exact v.func2
  · intro i m hm
    obtain ⟨m0, h1, h2⟩ := v.proc i m hm
    exact ⟨m0, h1, by rw [procAt_append, procAt_none _ _ e he]; exact h2⟩

theorem vars_set {c0 c c' : Config} {h : List Event} (v : Vars c0 c h) {x : Setting} (hc : change c x = .ok c') : Vars c0 c' (h ++ [.set x]) := by
  have same : ∀ i : Nat, (∀ p, x ≠ .proc i p) → ∀ f, procAt i f (h ++ [.set x]) = procAt i f h := by
    intro i hx f
    rw [procAt_append]
    cases x with
    | proc k p =>
      have : k ≠ i := fun e => hx p (by rw [e])
      show (if k = i then p else procAt i f h) = procAt i f h
      rw [if_neg this]
    | _ => rfl
  have keepProc : ∀ (i : Nat) (g : Module → Module), (∀ m, (g m).proc = m.proc) → (∀ k p, x ≠ .proc k p) →
      ∀ (k : Nat) m, (modify c i g).modules[k]? = some m → ∃ m0, c0.modules[k]? = some m0 ∧ m.proc = procAt k m0.proc (h ++ [.set x]) := by
    intro i g hg hx k m hm
    obtain ⟨m1, h1, h2⟩ := modify_at hm
    obtain ⟨m0, h3, h4⟩ := v.proc k m1 h1
    refine ⟨m0, h3, ?_⟩
    rw [same k (hx k)]
    rcases h2 with h2 | ⟨h2, _⟩
    · rw [h2]; exact h4
    · rw [h2, hg]; exact h4
  have rest : (∀ k p, x ≠ .proc k p) → c'.modules = c.modules →
      ∀ (k : Nat) m, c'.modules[k]? = some m → ∃ m0, c0.modules[k]? = some m0 ∧ m.proc = procAt k m0.proc (h ++ [.set x]) := by
    intro hx he k m hm
    rw [he] at hm
    obtain ⟨m0, h3, h4⟩ := v.proc k m hm
    exact ⟨m0, h3, by rw [same k (hx k)]; exact h4⟩
  cases x with
  | func p =>
    injection hc with hc; subst hc
    refine ⟨by rw [funcAt_append]; rfl, by rw [func2At_append]; exact v.func2, rest (fun _ _ e => by cases e) rfl⟩
  | func2 p =>
    injection hc with hc; subst hc
    refine ⟨by rw [funcAt_append]; exact v.func, by rw [func2At_append]; rfl, rest (fun _ _ e => by cases e) rfl⟩
  | proc i p =>
    injection hc with hc; subst hc
    refine ⟨by rw [funcAt_append]; exact v.func, by rw [func2At_append]; exact v.func2, ?_⟩
    intro k m hm
    obtain ⟨m1, h1, h2⟩ := modify_at hm
    obtain ⟨m0, h3, h4⟩ := v.proc k m1 h1
    refine ⟨m0, h3, ?_⟩
    rw [procAt_append]
    show m.proc = if i = k then p else procAt k m0.proc h
    by_cases e : i = k
    · rw [if_pos e]
      rcases h2 with h2 | ⟨h2, _⟩
      · have : (modify c i (fun m => { m with proc := p })).modules[k]? = some { m1 with proc := p } := by
          unfold modify
          dsimp only
          rw [List.getElem?_modify, h1, e]
          simp
        rw [this] at hm
        injection hm with hm
        rw [← hm]
      · rw [h2]
    · rw [if_neg e]
      rcases h2 with h2 | ⟨_, h2⟩
      · rw [h2]; exact h4
      · exact absurd h2 e
  | level i l =>
    injection hc with hc; subst hc
    exact ⟨by rw [funcAt_append]; exact v.func, by rw [func2At_append]; exact v.func2, keepProc i _ (fun _ => rfl) (fun _ _ e => by cases e)⟩
  | parent i l =>
    injection hc with hc; subst hc
    exact ⟨by rw [funcAt_append]; exact v.func, by rw [func2At_append]; exact v.func2, keepProc i _ (fun _ => rfl) (fun _ _ e => by cases e)⟩
  | flags i a b =>
    injection hc with hc; subst hc
    exact ⟨by rw [funcAt_append]; exact v.func, by rw [func2At_append]; exact v.func2, keepProc i _ (fun _ => rfl) (fun _ _ e => by cases e)⟩
  | name i l =>
    injection hc with hc; subst hc
    exact ⟨by rw [funcAt_append]; exact v.func, by rw [func2At_append]; exact v.func2, keepProc i _ (fun _ => rfl) (fun _ _ e => by cases e)⟩
  | timestamp b =>
    injection hc with hc; subst hc
    exact ⟨by rw [funcAt_append]; exact v.func, by rw [func2At_append]; exact v.func2, rest (fun _ _ e => by cases e) rfl⟩
  | tid b =>
    injection hc with hc; subst hc
    exact ⟨by rw [funcAt_append]; exact v.func, by rw [func2At_append]; exact v.func2, rest (fun _ _ e => by cases e) rfl⟩
  | format f =>
    obtain ⟨h1, h2, h3⟩ := setFormat_rest hc
    exact ⟨by rw [funcAt_append, h1]; exact v.func, by rw [func2At_append, h2]; exact v.func2, rest (fun _ _ e => by cases e) h3⟩

/-! ### The history -/

/-- `gutil_log_func` had that value at some point since the thread called `gutil_log`. -/
def Window (c0 : Config) (t : Nat) (p : Proc) (h : List Event) : Prop :=
  ∃ j a b1 b2, During t h j a (b1 ++ b2) ∧ funcAt c0.func (a ++ .began t j :: b1) = some p

structure Trace (c0 : Config) (s : State) : Prop where
  vars : Vars c0 s.cfg s.hist
  during : ∀ t j, jobOf (s.pc t) = some j → ∃ a b, During t s.hist j a b
  win : ∀ t j p, (s.pc t = .hideName j p ∨ s.pc t = .name j p) → Window c0 t p s.hist
  once : ∀ t j a b, During t s.hist j a b → (outs t b).length + (if s.pc t = .idle then 0 else 1) ≤ 1
  called : ∀ pre post t p, s.hist = pre ++ .called t p :: post → Window c0 t p pre
  called2 : ∀ pre post t i p, s.hist = pre ++ .called2 t i p :: post → (∃ j a b, During t pre j a b ∧ i = j.target) ∧
    (func2At c0.func2 pre = some p ∨ ∃ m0, c0.modules[i]? = some m0 ∧ procAt i m0.proc pre = some p)
  carried : ∀ pre post t o, s.hist = pre ++ .out t o :: post → ∃ j a b, During t pre j a b ∧ Carries j o

theorem window_append {c0 : Config} {t : Nat} {p : Proc} {h : List Event} (w : Window c0 t p h) (e : List Event) (he : ∀ k, Event.began t k ∉ e) :
    Window c0 t p (h ++ e) := by
  obtain ⟨j, a, b1, b2, h1, h2⟩ := w
  refine ⟨j, a, b1, b2 ++ e, ?_, h2⟩
  rw [← List.append_assoc]
  exact during_append h1 he

theorem outs_none {t : Nat} {e : List Event} (h : ∀ o, Event.out t o ∉ e) : outs t e = [] := by
  unfold outs
  rw [List.filterMap_eq_nil_iff]
  intro x hx
  cases x with
  | out u o =>
    dsimp only
    by_cases e : u = t
    · subst e; exact absurd hx (h o)
    · rw [if_neg e]
  | _ => rfl

theorem trace_begin {c0 : Config} {s : State} (T : Trace c0 s) (t : Nat) (j : Job) (hi : s.pc t = .idle) :
    Trace c0 { s.goto t (.entry j) with hist := s.hist ++ [.began t j] } := by
  have other : ∀ {u : Nat}, u ≠ t → ∀ k, Event.began u k ∉ [Event.began t j] := by
    intro u hu k hk
    have := List.mem_singleton.mp hk
    injection this with h1 _
    exact hu h1
  have old : ∀ {x : Event} {pre post : List Event}, (∀ v k, x ≠ .began v k) → s.hist ++ [.began t j] = pre ++ x :: post → ∃ q, s.hist = pre ++ x :: q := by
    intro x pre post hx h
    rcases split_hist h with h | ⟨e1, _, h⟩
    · exact h
    · have : x ∈ [Event.began t j] := by rw [h]; simp
      exact absurd (List.mem_singleton.mp this) (hx t j)
  refine ⟨vars_quiet T.vars _ (fun x hx => by cases List.mem_singleton.mp hx), ?_, ?_, ?_, ?_, ?_, ?_⟩
  · intro u k hk
    by_cases e : u = t
    · subst e
      have : jobOf ((s.goto u (.entry j)).pc u) = some k := hk
      rw [goto_same] at this
      injection this with this
      subst this
      exact ⟨s.hist, [], rfl, fun k hk => by cases hk⟩
    · have : jobOf ((s.goto t (.entry j)).pc u) = some k := hk
      rw [goto_other s _ e] at this
      obtain ⟨a, b, h⟩ := T.during u k this
      exact ⟨a, _, during_append h (other e)⟩
  · intro u k p hk
    by_cases e : u = t
    · subst e
      have hk : (s.goto u (.entry j)).pc u = .hideName k p ∨ (s.goto u (.entry j)).pc u = .name k p := hk
      rw [goto_same] at hk
      rcases hk with hk | hk <;> cases hk
    · have hk : (s.goto t (.entry j)).pc u = .hideName k p ∨ (s.goto t (.entry j)).pc u = .name k p := hk
      rw [goto_other s _ e] at hk
      exact window_append (T.win u k p hk) _ (other e)
  · intro u k a b hd
    by_cases e : u = t
    · subst e
      have hb : b = [] := by
        rcases split_hist hd.1 with ⟨q, hq⟩ | ⟨e1, _, h2⟩
        · have h1 := hd.1
          dsimp only at h1
          rw [hq, List.append_assoc, List.cons_append] at h1
          have h1 := List.append_cancel_left h1
          injection h1 with _ h1
          exact absurd (by rw [← h1]; simp) (hd.2 j)
        · cases e1 with
          | nil => injection h2 with _ h2; exact h2.symm
          | cons y e1 => injection h2 with _ h2; cases e1 <;> cases h2
      rw [hb]
      show 0 + (if (s.goto u (.entry j)).pc u = .idle then 0 else 1) ≤ 1
      split <;> omega
    · obtain ⟨b', h1, h2⟩ := during_split hd (other e)
      rw [h2, outs_append]
      have := T.once u k a b' h1
      have h0 : outs u [Event.began t j] = [] := rfl
      rw [h0, List.append_nil]
      show _ + (if (s.goto t (.entry j)).pc u = .idle then 0 else 1) ≤ 1
      rw [goto_other s _ e]
      exact this
  · intro pre post u p h
    obtain ⟨q, hq⟩ := old (fun _ _ e => by cases e) h
    exact T.called pre q u p hq
  · intro pre post u i p h
    obtain ⟨q, hq⟩ := old (fun _ _ e => by cases e) h
    exact T.called2 pre q u i p hq
  · intro pre post u o h
    obtain ⟨q, hq⟩ := old (fun _ _ e => by cases e) h
    exact T.carried pre q u o hq

theorem trace_set {c0 c : Config} {s : State} (T : Trace c0 s) (x : Setting) (hc : change s.cfg x = .ok c) : Trace c0 { s with cfg := c, hist := s.hist ++ [.set x] } := by
  have other : ∀ (u : Nat) k, Event.began u k ∉ [Event.set x] := fun u k hk => by cases List.mem_singleton.mp hk
  have old : ∀ {y : Event} {pre post : List Event}, (∀ z, y ≠ .set z) → s.hist ++ [.set x] = pre ++ y :: post → ∃ q, s.hist = pre ++ y :: q := by
    intro y pre post hy h
    rcases split_hist h with h | ⟨e1, _, h⟩
    · exact h
    · have : y ∈ [Event.set x] := by rw [h]; simp
      exact absurd (List.mem_singleton.mp this) (hy x)
  refine ⟨vars_set T.vars hc, ?_, ?_, ?_, ?_, ?_, ?_⟩
  · intro u k hk
    obtain ⟨a, b, h⟩ := T.during u k hk
    exact ⟨a, _, during_append h (other u)⟩
  · intro u k p hk
    exact window_append (T.win u k p hk) _ (other u)
  · intro u k a b hd
    obtain ⟨b', h1, h2⟩ := during_split hd (other u)
    rw [h2, outs_append]
    have h0 : outs u [Event.set x] = [] := rfl
    rw [h0, List.append_nil]
    exact T.once u k a b' h1
  · intro pre post u p h
    obtain ⟨q, hq⟩ := old (fun _ e => by cases e) h
    exact T.called pre q u p hq
  · intro pre post u i p h
    obtain ⟨q, hq⟩ := old (fun _ e => by cases e) h
    exact T.called2 pre q u i p hq
  · intro pre post u o h
    obtain ⟨q, hq⟩ := old (fun _ e => by cases e) h
    exact T.carried pre q u o hq

theorem mem_noteOuts {l : List Note} {o : Out} (h : .out o ∈ l) : o ∈ noteOuts l := by
  unfold noteOuts
  rw [List.mem_filterMap]
  exact ⟨_, h, rfl⟩

theorem quiet_events {t u : Nat} {pc : Pc} {l : List Note} (h : Quiet l) : (∀ p, Event.called u p ∉ events t (pc, l)) ∧ ∀ i p, Event.called2 u i p ∉ events t (pc, l) :=
  ⟨fun p hp => h.1 p (events_called hp).2, fun i p hp => h.2 i p (events_called2 hp).2⟩

/-- It's the first event. -/
theorem first_event {α : Type} {x y : α} {e1 post rest : List α} (h : x :: rest = e1 ++ y :: post) (hn : y ∉ rest) : e1 = [] ∧ x = y := by
  cases e1 with
  | nil => injection h with h1 h2; exact ⟨rfl, h1⟩
  | cons z e1 =>
    injection h with h1 h2
    exact absurd (by rw [h2]; simp) hn

theorem trace_next {env : Env} {c0 : Config} {s : State} (T : Trace c0 s) (t : Nat) {r : Pc × List Note} (hi : s.pc t ≠ .idle) (hn : next env s.cfg (s.pc t) = .ok r) :
    Trace c0 { s.goto t r.1 with hist := s.hist ++ events t r } := by
  obtain ⟨j, hj⟩ := job_idle hi
  obtain ⟨a, b, hd⟩ := T.during t j hj
  have eff := next_effect hn hj
  have nb := fun u => events_began t u r
  refine ⟨vars_quiet T.vars _ (events_set t r), ?_, ?_, ?_, ?_, ?_, ?_⟩
  · intro u k hk
    have hk : jobOf ((s.goto t r.1).pc u) = some k := hk
    by_cases e : u = t
    · subst e
      rw [goto_same] at hk
      rcases eff.2 with h | h
      · rw [h] at hk; cases hk
      · rw [h] at hk
        injection hk with hk
        subst hk
        exact ⟨a, _, during_append hd (nb u)⟩
    · rw [goto_other s _ e] at hk
      obtain ⟨a, b, h⟩ := T.during u k hk
      exact ⟨a, _, during_append h (nb u)⟩
  · intro u k p hk
    have hk : (s.goto t r.1).pc u = .hideName k p ∨ (s.goto t r.1).pc u = .name k p := hk
    by_cases e : u = t
    · subst e
      rw [goto_same] at hk
      rcases next_hideName hn hk with ⟨h1, h2⟩ | h1
      · rw [h1] at hj
        injection hj with hj
        subst hj
        refine ⟨k, a, b, events u r, during_append hd (nb u), ?_⟩
        rw [← hd.1, ← T.vars.func]
        exact h2
      · exact window_append (T.win u k p (.inl h1)) _ (nb u)
    · rw [goto_other s _ e] at hk
      exact window_append (T.win u k p hk) _ (nb u)
  · intro u k a' b' hd'
    obtain ⟨b1, h1, h2⟩ := during_split hd' (nb u)
    have h3 := T.once u k a' b1 h1
    rw [h2, outs_append]
    show _ + (if (s.goto t r.1).pc u = .idle then 0 else 1) ≤ 1
    by_cases e : u = t
    · subst e
      rw [goto_same, outs_events_same]
      rw [if_neg hi] at h3
      have h0 : (outs u b1).length = 0 := by omega
      rw [List.length_append, h0]
      rcases eff.1 with h4 | ⟨h4, o, h5, _⟩
      · rw [h4]
        split <;> simp
      · rw [h5, h4]
        simp
    · rw [goto_other s _ e, outs_events_other (fun h => e h.symm), List.append_nil]
      exact h3
  · intro pre post u p h
    rcases split_hist h with ⟨q, hq⟩ | ⟨e1, h1, h2⟩
    · exact T.called pre q u p hq
    · have hm : Event.called u p ∈ events t r := by rw [h2]; simp
      have hu := (events_called hm).1
      subst hu
      obtain ⟨pc', l⟩ := r
      have hcalls := next_calls hn
      dsimp only at hcalls
      cases hcalls with
      | quiet hq => exact absurd hm ((quiet_events hq).1 p)
      | func hpc hq =>
        rename_i l j' p'
        have h2 : Event.called u p' :: events u (pc', l) = e1 ++ .called u p :: post := h2
        obtain ⟨h3, h4⟩ := first_event h2 ((quiet_events hq).1 p)
        injection h4 with _ h4
        subst h4
        rw [h1, h3, List.append_nil]
        exact T.win u j' p' hpc
      | func2 hj' hp hq =>
        rename_i l j' p'
        have h2 : Event.called2 u j'.target p' :: events u (pc', l) = e1 ++ .called u p :: post := h2
        obtain ⟨h3, h4⟩ := first_event h2 ((quiet_events hq).1 p)
        cases h4
  · intro pre post u i p h
    rcases split_hist h with ⟨q, hq⟩ | ⟨e1, h1, h2⟩
    · exact T.called2 pre q u i p hq
    · have hm : Event.called2 u i p ∈ events t r := by rw [h2]; simp
      have hu := (events_called2 hm).1
      subst hu
      obtain ⟨pc', l⟩ := r
      have hcalls := next_calls hn
      dsimp only at hcalls
      cases hcalls with
      | quiet hq => exact absurd hm ((quiet_events hq).2 i p)
      | func hpc hq =>
        rename_i l j' p'
        have h2 : Event.called u p' :: events u (pc', l) = e1 ++ .called2 u i p :: post := h2
        obtain ⟨h3, h4⟩ := first_event h2 ((quiet_events hq).2 i p)
        cases h4
      | func2 hj' hp hq =>
        rename_i l j' p'
        have h2 : Event.called2 u j'.target p' :: events u (pc', l) = e1 ++ .called2 u i p :: post := h2
        obtain ⟨h3, h4⟩ := first_event h2 ((quiet_events hq).2 i p)
        injection h4 with _ h4 h5
        subst h5
        subst h4
        rw [h1, h3, List.append_nil]
        rw [hj] at hj'
        injection hj' with hj'
        subst hj'
        refine ⟨⟨j, a, b, hd, rfl⟩, ?_⟩
        rcases hp with hp | ⟨m, hm, hp⟩
        · left
          rw [← T.vars.func2]
          exact hp
        · right
          obtain ⟨m0, h6, h7⟩ := T.vars.proc _ m hm
          exact ⟨m0, h6, by rw [← h7]; exact hp⟩
  · intro pre post u o h
    rcases split_hist h with ⟨q, hq⟩ | ⟨e1, h1, h2⟩
    · exact T.carried pre q u o hq
    · have hm : Event.out u o ∈ events t r := by rw [h2]; simp
      have hu := (events_out hm).1
      subst hu
      have hm := (events_out hm).2
      rcases eff.1 with h4 | ⟨_, o', h5, h6⟩
      · have := mem_noteOuts hm
        rw [h4] at this
        cases this
      · have := mem_noteOuts hm
        rw [h5] at this
        have := List.mem_singleton.mp this
        subst this
        refine ⟨j, a, b ++ e1, ?_, h6⟩
        rw [h1]
        exact during_append hd (fun k hk => nb u k (by rw [h2]; exact List.mem_append_left _ hk))

theorem start_trace (c : Config) : Trace c (start c) := by
  refine ⟨⟨rfl, rfl, fun i m hm => ⟨m, hm, rfl⟩⟩, ?_, ?_, ?_, ?_, ?_, ?_⟩
  · intro t j h; cases h
  · intro t j p h; rcases h with h | h <;> cases h
  · intro t j a b h; have := h.1; cases a <;> cases this
  · intro pre post t p h; cases pre <;> cases h
  · intro pre post t i p h; cases pre <;> cases h
  · intro pre post t o h; cases pre <;> cases h

theorem reach_trace {P : State → Act → Prop} {env : Env} {c : Config} {s : State} (h : Reach P env c s) : Trace c s := by
  induction h with
  | start => exact start_trace c
  | @step s s' a _ ha _ hs ih =>
    cases a with
    | begin t j =>
      injection hs with hs
      rw [← hs]
      exact trace_begin ih t j ha.1
    | next t =>
      obtain ⟨r, h1, h2⟩ := next_shape hs
      rw [h2]
      exact trace_next ih t ha h1
    | set x =>
      obtain ⟨c, h1, h2⟩ := set_shape hs
      rw [h2]
      exact trace_set ih x h1

/-! ### When nothing is being changed -/

theorem steps_idle {env : Env} {c : Config} {n : Nat} {o : List Out} (h : Steps env c n .idle o) : o = [] := by
  cases h with
  | done => rfl
  | step h1 _ => cases h1

theorem steps_next {env : Env} {c : Config} {n : Nat} {pc : Pc} {o : List Out} {r : Pc × List Note} (h : Steps env c n pc o) (hi : pc ≠ .idle) (hn : next env c pc = .ok r) :
    ∃ n' o', Steps env c n' r.1 o' ∧ o = noteOuts r.2 ++ o' := by
  cases h with
  | done => exact absurd rfl hi
  | step h1 h2 =>
    rw [h1] at hn
    injection hn with hn
    subst hn
    exact ⟨_, _, h2, rfl⟩

theorem path_undisturbed {env : Env} {s s' : State} {t : Nat} {f : Job → List Out} (h : Path env s s') : ∃ h, s'.hist = s.hist ++ h ∧
    ((∀ x, Event.set x ∉ h) → s.pc t = .idle → (∀ j ∈ jobs t h, Log.logv env s.cfg j.module j.level j.msg = .ok (f j)) →
      s'.cfg = s.cfg ∧ ∃ n rest, Steps env s.cfg n (s'.pc t) rest ∧ outs t h ++ rest = (jobs t h).flatMap f) := by
  induction h with
  | refl =>
    refine ⟨[], (List.append_nil _).symm, ?_⟩
    intro _ hi _
    exact ⟨rfl, 0, [], by rw [hi]; exact Steps.done, rfl⟩
  | @step s1 s2 a _ ha hs ih =>
    obtain ⟨h, e1, ih⟩ := ih
    cases a with
    | begin u j =>
      injection hs with hs
      refine ⟨h ++ [.began u j], by rw [← hs, ← List.append_assoc, ← e1], ?_⟩
      intro hx hi hj
      have := ih (fun x hm => hx x (List.mem_append_left _ hm)) hi (fun k hk => hj k (by rw [jobs_append]; exact List.mem_append_left _ hk))
      obtain ⟨hc, n, rest, h1, h2⟩ := this
      refine ⟨by rw [← hs]; exact hc, ?_⟩
      by_cases e : u = t
      · subst e
        have e2 : jobs u [Event.began u j] = [j] := by simp [jobs]
        have hl := hj j (by rw [jobs_append, e2]; simp)
        obtain ⟨n', h3⟩ := entry_steps hl
        rw [ha.1] at h1
        have := steps_idle h1
        subst this
        refine ⟨n', f j, ?_, ?_⟩
        · rw [← hs]
          show Steps env s.cfg n' ((s1.goto u (.entry j)).pc u) (f j)
          rw [goto_same]
          exact h3
        · rw [outs_append, jobs_append, e2, List.flatMap_append, ← h2, List.append_nil]
          have e3 : outs u [Event.began u j] = [] := rfl
          rw [e3, List.append_nil, List.flatMap_cons, List.flatMap_nil, List.append_nil]
      · refine ⟨n, rest, ?_, ?_⟩
        · rw [← hs]
          show Steps env s.cfg n ((s1.goto u (.entry j)).pc t) rest
          rw [goto_other s1 _ (fun h => e h.symm)]
          exact h1
        · have e2 : jobs t [Event.began u j] = [] := by simp [jobs, e]
          have e3 : outs t [Event.began u j] = [] := rfl
          rw [outs_append, jobs_append, e2, e3, List.append_nil, List.append_nil]
          exact h2
    | next u =>
      obtain ⟨r, h3, h4⟩ := next_shape hs
      refine ⟨h ++ events u r, by rw [h4, ← List.append_assoc s.hist, ← e1]; rfl, ?_⟩
      intro hx hi hj
      have := ih (fun x hm => hx x (List.mem_append_left _ hm)) hi (fun k hk => hj k (by rw [jobs_append]; exact List.mem_append_left _ hk))
      obtain ⟨hc, n, rest, h1, h2⟩ := this
      refine ⟨by rw [h4]; exact hc, ?_⟩
      by_cases e : u = t
      · subst e
        rw [hc] at h3
        obtain ⟨n', o', h5, h6⟩ := steps_next h1 ha h3
        refine ⟨n', o', ?_, ?_⟩
        · rw [h4]
          show Steps env s.cfg n' ((s1.goto u r.1).pc u) o'
          rw [goto_same]
          exact h5
        · rw [outs_append, jobs_append, jobs_events, List.append_nil, outs_events_same, ← h2, h6, List.append_assoc]
      · refine ⟨n, rest, ?_, ?_⟩
        · rw [h4]
          show Steps env s.cfg n ((s1.goto u r.1).pc t) rest
          rw [goto_other s1 _ (fun h => e h.symm)]
          exact h1
        · rw [outs_append, jobs_append, jobs_events, List.append_nil, outs_events_other e, List.append_nil]
          exact h2
    | set x =>
      obtain ⟨c, h3, h4⟩ := set_shape hs
      refine ⟨h ++ [.set x], by rw [h4, ← List.append_assoc, ← e1], ?_⟩
      intro hx
      exact absurd (by simp) (hx x)

end Verif.LogThreads
