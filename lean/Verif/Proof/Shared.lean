import Verif.Model.Shared

namespace Verif.Shared
open Verif.C

/-- Sum over the threads -/
def total (f : Thread → Nat) (l : List Thread) : Nat := (l.map f).sum

theorem total_set (f : Thread → Nat) (l : List Thread) (t : Nat) (x y : Thread) (h : l[t]? = some x) :
    total f (l.set t y) + f x = total f l + f y := by
  induction l generalizing t with
  | nil => simp at h
  | cons a l ih =>
    cases t with
    | zero => simp at h; subst h; simp [total]; omega
    | succ t =>
      have := ih t (by simpa using h)
      simp only [total, List.set_cons_succ, List.map_cons, List.sum_cons] at this ⊢
      omega

theorem le_total (f : Thread → Nat) (l : List Thread) (t : Nat) (x : Thread) (h : l[t]? = some x) : f x ≤ total f l := by
  have := total_set f l t x x h
  induction l generalizing t with
  | nil => simp at h
  | cons a l ih =>
    cases t with
    | zero => simp at h; subst h; simp [total]
    | succ t =>
      have := ih t (by simpa using h) (total_set f l t x x (by simpa using h))
      simp only [total, List.map_cons, List.sum_cons] at this ⊢
      omega

theorem total_zero (f : Thread → Nat) (l : List Thread) (h : ∀ (t : Nat) (x : Thread), l[t]? = some x → f x = 0) : total f l = 0 := by
  induction l with
  | nil => rfl
  | cons a l ih =>
    have h0 := h 0 a rfl
    have := ih (fun t x hx => h (t + 1) x hx)
    simp only [total, List.map_cons, List.sum_cons] at this ⊢
    omega

theorem total_pos (f : Thread → Nat) (l : List Thread) (h : 0 < total f l) : ∃ (t : Nat) (x : Thread), l[t]? = some x ∧ 0 < f x := by
  by_cases hc : ∃ (t : Nat) (x : Thread), l[t]? = some x ∧ 0 < f x
  · exact hc
  · have := total_zero f l (fun t x hx => by
      by_cases h0 : f x = 0
      · exact h0
      · exact absurd ⟨t, x, hx, by omega⟩ hc)
    omega

theorem total_only (f : Thread → Nat) (l : List Thread) (t : Nat) (x : Thread) (h : l[t]? = some x)
    (h0 : ∀ (u : Nat) (y : Thread), u ≠ t → l[u]? = some y → f y = 0) : total f l = f x := by
  induction l generalizing t with
  | nil => simp at h
  | cons a l ih =>
    cases t with
    | zero =>
      simp at h; subst h
      have := total_zero f l (fun u y hy => h0 (u + 1) y (by omega) (by simpa using hy))
      simp only [total, List.map_cons, List.sum_cons] at this ⊢
      omega
    | succ t =>
      have h1 := ih t (by simpa using h) (fun u y hu hy => h0 (u + 1) y (by omega) (by simpa using hy))
      have h2 := h0 0 a (by omega) rfl
      simp only [total, List.map_cons, List.sum_cons] at h1 ⊢
      omega

def fOwned (x : Thread) : Nat := x.owned
def fPre (x : Thread) : Nat := if x.pc = .last ∨ x.pc = .lastData then 1 else 0
def fFin (x : Thread) : Nat := if x.pc = .free then 1 else 0
def fData (x : Thread) : Nat := if x.pc = .lastData then 1 else 0

/-- `q`: the threads which use `gutil_ints_unref_to_data` are careful (see below). -/
structure Inv (q : Prop) (s : State) : Prop where
  sum : s.refs = total fOwned s.threads
  one : total fPre s.threads + total fFin s.threads ≤ 1
  busy : 0 < s.refs → total fPre s.threads + total fFin s.threads = 0
  alive : s.alive = true ↔ (0 < s.refs ∨ 0 < total fPre s.threads + total fFin s.threads)
  before : (0 < s.refs ∨ 0 < total fPre s.threads) → s.data = true ∧ s.released = 0 ∧ s.given = 0
  after : s.refs = 0 → total fPre s.threads = 0 → s.released + s.given = if s.kind = .nothing then 0 else 1
  copy : q → ∀ (t : Nat) (x : Thread), s.threads[t]? = some x → x.pc = .copy → 0 < x.owned
  data : q → ∀ (t : Nat) (x : Thread), s.threads[t]? = some x → x.pc = .lastData → s.kind ≠ .nothing

theorem new_inv (q : Prop) (kind : Kind) (n : Nat) : Inv q (new kind n) := by
  have h1 : ∀ f : Thread → Nat, f ⟨0, .idle⟩ = 0 → total f (List.replicate n ⟨0, .idle⟩) = 0 := by
    intro f hf
    apply total_zero
    intro t x hx
    obtain rfl : x = ⟨0, .idle⟩ := by rw [List.getElem?_replicate] at hx; split at hx <;> simp_all
    exact hf
  have hc : ∀ f : Thread → Nat, f ⟨0, .idle⟩ = 0 → total f (new kind n).threads = f ⟨1, .idle⟩ := by
    intro f hf
    have := h1 f hf
    simp only [total, new, List.map_cons, List.sum_cons] at this ⊢
    omega
  have hi : ∀ (t : Nat) (x : Thread), (new kind n).threads[t]? = some x → x.pc = .idle := by
    intro t x hx
    cases t with
    | zero => simp [new] at hx; subst hx; rfl
    | succ t =>
      simp only [new, List.getElem?_cons_succ] at hx
      obtain rfl : x = ⟨0, .idle⟩ := by rw [List.getElem?_replicate] at hx; split at hx <;> simp_all
      rfl
  have a := hc fOwned rfl
  have b := hc fPre rfl
  have c := hc fFin rfl
  simp [fOwned, fPre, fFin] at a b c
  constructor
  · exact a.symm
  · omega
  · intro _; omega
  · simp [new]
  · intro _; simp [new]
  · intro h; simp [new] at h
  · intro _ t x hx h; rw [hi t x hx] at h; cases h
  · intro _ t x hx h; rw [hi t x hx] at h; cases h

/-- What's allowed to be given to unref_to_data: there's one more reference owned by the same thread, or none at all. -/
def Careful (s : State) : Act → Prop
  | .toData t => 2 ≤ s.owned t ∨ ((∀ u, u ≠ t → s.owned u = 0) ∧ s.kind ≠ .nothing)
  | _ => True

theorem of_owned {s : State} {t : Nat} (h : 0 < s.owned t) : ∃ x, s.threads[t]? = some x ∧ s.owned t = x.owned := by
  unfold State.owned at *
  cases hx : s.threads[t]? with
  | none => simp [hx] at h
  | some x => exact ⟨x, rfl, by simp⟩

theorem thread_ok {s : State} {t : Nat} {x : Thread} (h : s.threads[t]? = some x) : s.thread t = .ok x := by
  simp [State.thread, h]

theorem access_ok {s : State} (h : s.alive = true) : s.access = .ok () := if_pos h

theorem read_ok {s : State} (h : s.data = true) : s.read = .ok () := if_pos h

theorem not_busy {s : State} {t : Nat} {x : Thread} (h : s.threads[t]? = some x) (hb : ¬ s.busy t) : x.pc = .idle := by
  by_cases hc : x.pc = .idle
  · exact hc
  · exact absurd ⟨x, h, hc⟩ hb

/-- Changing one thread which isn't in `lastData` or `copy` afterwards -/
theorem set_elem {l : List Thread} {t : Nat} {y : Thread} {Q : Thread → Prop} (h : ∀ (u : Nat) (x : Thread), l[u]? = some x → Q x) (hy : Q y) :
    ∀ (u : Nat) (x : Thread), (l.set t y)[u]? = some x → Q x := by
  intro u x hx
  rw [List.getElem?_set] at hx
  split at hx
  · split at hx
    · cases hx; exact hy
    · cases hx
  · exact h u x hx

theorem dec_inv {q : Prop} {s : State} {t : Nat} {x : Thread} {zero other : Pc} (h : Inv q s) (hx : s.threads[t]? = some x) (ho : 0 < x.owned)
    (hi : x.pc = .idle) (hz : (zero = .last) ∨ (zero = .lastData ∧ (q → s.kind ≠ .nothing)))
    (hother : other = .idle ∨ (other = .copy ∧ (q → 1 < x.owned ∨ s.refs = 1))) :
    ∃ s', dec s t zero other = .ok s' ∧ Inv q s' := by
  have hr : 0 < s.refs := by rw [h.sum]; have : x.owned ≤ total fOwned s.threads := le_total fOwned _ _ _ hx; omega
  have hal : s.alive = true := h.alive.mpr (.inl hr)
  refine ⟨_, by simp only [dec, thread_ok hx, access_ok hal, bind, Except.bind]; rw [if_neg (by omega)], ?_⟩
  obtain ⟨k1, k2, k3, k4, k5, k6, k7, k8⟩ := h
  have k3 := k3 hr
  by_cases h1 : s.refs - 1 = 0
  · rw [if_pos h1]
    have a : _ + x.owned = total fOwned s.threads + (x.owned - 1) := total_set fOwned _ _ _ ⟨x.owned - 1, zero⟩ hx
    have b := total_set fPre _ _ _ ⟨x.owned - 1, zero⟩ hx
    have c := total_set fFin _ _ _ ⟨x.owned - 1, zero⟩ hx
    have e1 : fPre x = 0 := by simp [fPre, hi]
    have e2 : fFin x = 0 := by simp [fFin, hi]
    have e3 : fPre ⟨x.owned - 1, zero⟩ = 1 := by rcases hz with rfl | ⟨rfl, _⟩ <;> rfl
    have e4 : fFin ⟨x.owned - 1, zero⟩ = 0 := by rcases hz with rfl | ⟨rfl, _⟩ <;> rfl
    rw [e1, e3] at b
    rw [e2, e4] at c
    have k5 := k5 (.inl hr)
    constructor <;> dsimp only
    · omega
    · omega
    · omega
    · simp only [hal, true_iff]; omega
    · intro _; exact k5
    · intro _ h2; omega
    · exact fun hq => set_elem (k7 hq) (by intro h; dsimp only at h; rcases hz with rfl | ⟨rfl, _⟩ <;> cases h)
    · exact fun hq => set_elem (k8 hq) (by intro h; dsimp only at h; rcases hz with rfl | ⟨rfl, hk⟩ <;> first | exact absurd h (by decide) | exact hk hq)
  · rw [if_neg h1]
    have a : _ + x.owned = total fOwned s.threads + (x.owned - 1) := total_set fOwned _ _ _ ⟨x.owned - 1, other⟩ hx
    have b := total_set fPre _ _ _ ⟨x.owned - 1, other⟩ hx
    have c := total_set fFin _ _ _ ⟨x.owned - 1, other⟩ hx
    have e1 : fPre x = 0 := by simp [fPre, hi]
    have e2 : fFin x = 0 := by simp [fFin, hi]
    have e3 : fPre ⟨x.owned - 1, other⟩ = 0 := by rcases hother with rfl | ⟨rfl, _⟩ <;> rfl
    have e4 : fFin ⟨x.owned - 1, other⟩ = 0 := by rcases hother with rfl | ⟨rfl, _⟩ <;> rfl
    rw [e1, e3] at b
    rw [e2, e4] at c
    have k5 := k5 (.inl hr)
    constructor <;> dsimp only
    · omega
    · omega
    · omega
    · simp only [hal, true_iff]; omega
    · intro _; exact k5
    · intro h2; omega
    · exact fun hq => set_elem (k7 hq) (by intro h; dsimp only at h ⊢; rcases hother with rfl | ⟨rfl, hk⟩ <;> first | exact absurd h (by decide) | (have := hk hq; omega))
    · exact fun hq => set_elem (k8 hq) (by intro h; dsimp only at h; rcases hother with rfl | ⟨rfl, _⟩ <;> cases h)

theorem goto_inv {q : Prop} {s s' : State} {t : Nat} {x : Thread} {pc : Pc} (hx : s.threads[t]? = some x) (ht : s'.threads = s.threads)
    (hk : s'.kind = s.kind) (h : Inv q s) (hpc : pc = .idle ∨ pc = .free)
    (H : ∀ pre fin : Nat, pre + fPre x = total fPre s.threads → fin + fFin x = total fFin s.threads + (if pc = .free then 1 else 0) →
      s'.refs = s.refs ∧ pre + fin ≤ 1 ∧ (0 < s.refs → pre + fin = 0) ∧ (s'.alive = true ↔ (0 < s.refs ∨ 0 < pre + fin)) ∧
      ((0 < s.refs ∨ 0 < pre) → s'.data = true ∧ s'.released = 0 ∧ s'.given = 0) ∧
      (s.refs = 0 → pre = 0 → s'.released + s'.given = if s.kind = .nothing then 0 else 1)) : Inv q (s'.goto t x pc) := by
  have a : _ + x.owned = total fOwned s.threads + x.owned := total_set fOwned _ _ _ { x with pc := pc } hx
  have b := total_set fPre _ _ _ { x with pc := pc } hx
  have c := total_set fFin _ _ _ { x with pc := pc } hx
  have e1 : fPre { x with pc := pc } = 0 := by rcases hpc with rfl | rfl <;> rfl
  have e2 : fFin { x with pc := pc } = if pc = .free then 1 else 0 := rfl
  rw [e1] at b
  rw [e2] at c
  have a : total fOwned (s.threads.set t { x with pc := pc }) = total fOwned s.threads := by omega
  obtain ⟨h1, h2, h3, h4, h5, h6⟩ := H _ _ (by omega) c
  unfold State.goto
  rw [ht]
  constructor <;> dsimp only
  · rw [h1, h.sum, a]
  · exact h2
  · rw [h1]; exact h3
  · rw [h1]; exact h4
  · rw [h1]; exact h5
  · rw [h1, hk]; exact h6
  · exact fun hq => set_elem (h.copy hq) (by intro h; dsimp only at h; rcases hpc with rfl | rfl <;> cases h)
  · rw [hk]; exact fun hq => set_elem (h.data hq) (by intro h; dsimp only at h; rcases hpc with rfl | rfl <;> cases h)

/-- What may go wrong: the data are to be copied when there are no references left and they have been released, or the object has been deallocated; or there's
no function to release them. -/
def Fails (s : State) (a : Act) : Prop := ∃ t x, a = .next t ∧ s.threads[t]? = some x ∧
  (x.pc = .copy ∧ s.refs = 0 ∧ (s.alive = false ∨ s.data = false) ∧ step s a = .error .useAfterFree ∨
    x.pc = .lastData ∧ s.kind = .nothing ∧ step s a = .error .nullCall)

theorem step_inv' {q : Prop} {s : State} {a : Act} (h : Inv q s) (ha : Allowed s a) (hc : q → Careful s a) :
    (∃ s', step s a = .ok s' ∧ Inv q s') ∨ ¬ q ∧ Fails s a := by
  have live : ∀ (t : Nat) (x : Thread), s.threads[t]? = some x → 0 < x.owned → 0 < s.refs ∧ s.alive = true ∧ s.data = true := by
    intro t x hx ho
    have hr : 0 < s.refs := by rw [h.sum]; have : x.owned ≤ total fOwned s.threads := le_total fOwned _ _ _ hx; omega
    exact ⟨hr, h.alive.mpr (.inl hr), (h.before (.inl hr)).1⟩
  cases a with
  | ref t =>
    obtain ⟨ho, hb⟩ := ha
    obtain ⟨x, hx, he⟩ := of_owned ho
    rw [he] at ho
    obtain ⟨hr, hal, _⟩ := live t x hx ho
    refine .inl ⟨_, by simp only [step, ref, thread_ok hx, access_ok hal, bind, Except.bind]; rfl, ?_⟩
    have a : _ + x.owned = total fOwned s.threads + (x.owned + 1) := total_set fOwned _ _ _ { x with owned := x.owned + 1 } hx
    have b := total_set fPre _ _ _ { x with owned := x.owned + 1 } hx
    have c := total_set fFin _ _ _ { x with owned := x.owned + 1 } hx
    have e1 : fPre { x with owned := x.owned + 1 } = fPre x := rfl
    have e2 : fFin { x with owned := x.owned + 1 } = fFin x := rfl
    rw [e1] at b
    rw [e2] at c
    have b : total fPre (s.threads.set t { x with owned := x.owned + 1 }) = total fPre s.threads := by omega
    have c : total fFin (s.threads.set t { x with owned := x.owned + 1 }) = total fFin s.threads := by omega
    have d := h.busy hr
    have e := h.sum
    constructor <;> dsimp only
    · omega
    · omega
    · intro _; omega
    · simp only [hal, true_iff]; omega
    · intro _; exact h.before (.inl hr)
    · intro h2; omega
    · exact fun hq => set_elem (h.copy hq) (by intro _; dsimp only; omega)
    · exact fun hq => set_elem (h.data hq) (by intro h1; exact h.data hq t x hx h1)
  | use t =>
    obtain ⟨ho, hb⟩ := ha
    obtain ⟨x, hx, he⟩ := of_owned ho
    rw [he] at ho
    obtain ⟨hr, hal, hd⟩ := live t x hx ho
    exact .inl ⟨s, by simp only [step, use, thread_ok hx, access_ok hal, read_ok hd, bind, Except.bind], h⟩
  | give t u =>
    obtain ⟨ho, hb, hu⟩ := ha
    obtain ⟨x, hx, he⟩ := of_owned ho
    rw [he] at ho
    obtain ⟨hr, hal, _⟩ := live t x hx ho
    have hi := not_busy hx hb
    obtain ⟨y, hy⟩ : ∃ y, (s.threads.set t { x with owned := x.owned - 1 })[u]? = some y := by
      rw [List.getElem?_eq_getElem (by simpa using hu)]; exact ⟨_, rfl⟩
    refine .inl ⟨_, by simp only [step, give, thread_ok hx, bind, Except.bind]; rw [thread_ok (s := { s with threads := s.threads.set t { x with owned := x.owned - 1 } }) hy], ?_⟩
    have a1 : _ + x.owned = total fOwned s.threads + (x.owned - 1) := total_set fOwned _ _ _ { x with owned := x.owned - 1 } hx
    have b1 := total_set fPre _ _ _ { x with owned := x.owned - 1 } hx
    have c1 := total_set fFin _ _ _ { x with owned := x.owned - 1 } hx
    have a2 : _ + y.owned = _ + (y.owned + 1) := total_set fOwned _ _ _ { y with owned := y.owned + 1 } hy
    have b2 := total_set fPre _ _ _ { y with owned := y.owned + 1 } hy
    have c2 := total_set fFin _ _ _ { y with owned := y.owned + 1 } hy
    have e1 : fPre { x with owned := x.owned - 1 } = fPre x := rfl
    have e2 : fFin { x with owned := x.owned - 1 } = fFin x := rfl
    have e3 : fPre { y with owned := y.owned + 1 } = fPre y := rfl
    have e4 : fFin { y with owned := y.owned + 1 } = fFin y := rfl
    rw [e1] at b1
    rw [e2] at c1
    rw [e3] at b2
    rw [e4] at c2
    have d := h.busy hr
    have e := h.sum
    constructor <;> dsimp only
    · omega
    · omega
    · intro _; omega
    · rw [h.alive]; omega
    · intro _; exact h.before (.inl hr)
    · intro h2; omega
    · refine fun hq => set_elem (set_elem (h.copy hq) ?_) ?_
      · intro h1; dsimp only at h1; rw [hi] at h1; cases h1
      · intro h1; dsimp only at h1 ⊢; omega
    · refine fun hq => set_elem (set_elem (h.data hq) ?_) ?_
      · intro h1; exact h.data hq t x hx h1
      · intro h1
        have : ∀ (u : Nat) (z : Thread), (s.threads.set t { x with owned := x.owned - 1 })[u]? = some z → z.pc = .lastData → s.kind ≠ .nothing :=
          set_elem (h.data hq) (fun h1 => h.data hq t x hx h1)
        exact this u y hy h1
  | unref t =>
    obtain ⟨ho, hb⟩ := ha
    obtain ⟨x, hx, he⟩ := of_owned ho
    rw [he] at ho
    exact .inl <| dec_inv h hx ho (not_busy hx hb) (.inl rfl) (.inl rfl)
  | toData t =>
    obtain ⟨ho, hb⟩ := ha
    obtain ⟨x, hx, he⟩ := of_owned ho
    rw [he] at ho
    have hc : q → 2 ≤ x.owned ∨ ((∀ u, u ≠ t → s.owned u = 0) ∧ s.kind ≠ .nothing) := by
      intro hq
      have : 2 ≤ s.owned t ∨ ((∀ u, u ≠ t → s.owned u = 0) ∧ s.kind ≠ .nothing) := hc hq
      rw [he] at this; exact this
    by_cases h2 : 2 ≤ s.refs
    · have hq : dec s t .lastData .copy = dec s t .last .copy := by
        unfold dec
        rw [if_neg (show ¬ s.refs - 1 = 0 by omega), if_neg (show ¬ s.refs - 1 = 0 by omega)]
      left
      show ∃ s', dec s t .lastData .copy = .ok s' ∧ Inv q s'
      rw [hq]
      refine dec_inv h hx ho (not_busy hx hb) (.inl rfl) (.inr ⟨rfl, fun hq => ?_⟩)
      by_cases h3 : 2 ≤ x.owned
      · exact .inl h3
      · obtain ⟨h4, -⟩ := (hc hq).resolve_left h3
        right
        rw [h.sum, total_only fOwned _ _ _ hx]
        · show x.owned = 1; omega
        · intro u y hu hy
          have := h4 u hu
          simp only [State.owned, hy, Option.map_some, Option.getD_some] at this
          exact this
    · have hr := (live t x hx ho).1
      have hle : x.owned ≤ total fOwned s.threads := le_total fOwned _ _ _ hx
      have hsum := h.sum
      refine .inl <| dec_inv h hx ho (not_busy hx hb) (.inr ⟨rfl, fun hq => ?_⟩) (.inr ⟨rfl, fun _ => .inr (by omega)⟩)
      exact ((hc hq).resolve_left (by omega)).2
  | next t =>
    obtain ⟨x, hx, hb⟩ := ha
    cases hp : x.pc with
    | idle => exact absurd hp hb
    | last =>
      have e1 : fPre x = 1 := by simp [fPre, hp]
      have e2 : fFin x = 0 := by simp [fFin, hp]
      have hpre := le_total fPre _ _ _ hx
      rw [e1] at hpre
      have hal : s.alive = true := h.alive.mpr (.inr (by omega))
      obtain ⟨hd, hr0, hg0⟩ := h.before (.inr (by omega))
      have hone := h.one
      have hrefs : s.refs = 0 := by have := h.busy; omega
      cases hk : s.kind with
      | nothing =>
        refine .inl ⟨_, by simp only [step, next, thread_ok hx, hp, finish, access_ok hal, hk, bind, Except.bind]; rfl, ?_⟩
        refine goto_inv hx rfl rfl h (.inr rfl) (fun pre fin h1 h2 => ?_)
        simp only [if_true] at h2
        refine ⟨rfl, by omega, by omega, by simp only [hal, true_iff]; omega, ?_, ?_⟩
        · intro h3; omega
        · intro _ _; rw [if_pos hk]; omega
      | gfree =>
        refine .inl ⟨_, by simp only [step, next, thread_ok hx, hp, finish, access_ok hal, release, if_pos hd, hk, bind, Except.bind]; rfl, ?_⟩
        refine goto_inv hx rfl hk.symm h (.inr rfl) (fun pre fin h1 h2 => ?_)
        simp only [if_true] at h2
        refine ⟨rfl, by omega, by omega, by simp only [hal, true_iff]; omega, ?_, ?_⟩
        · intro h3; omega
        · intro _ _; rw [hk]; simp only [reduceCtorEq, if_false]; omega
      | func =>
        refine .inl ⟨_, by simp only [step, next, thread_ok hx, hp, finish, access_ok hal, release, if_pos hd, hk, bind, Except.bind]; rfl, ?_⟩
        refine goto_inv hx rfl hk.symm h (.inr rfl) (fun pre fin h1 h2 => ?_)
        simp only [if_true] at h2
        refine ⟨rfl, by omega, by omega, by simp only [hal, true_iff]; omega, ?_, ?_⟩
        · intro h3; omega
        · intro _ _; rw [hk]; simp only [reduceCtorEq, if_false]; omega
    | free =>
      have e1 : fPre x = 0 := by simp [fPre, hp]
      have e2 : fFin x = 1 := by simp [fFin, hp]
      have hfin := le_total fFin _ _ _ hx
      rw [e2] at hfin
      have hal : s.alive = true := h.alive.mpr (.inr (by omega))
      have hone := h.one
      have hrefs : s.refs = 0 := by have := h.busy; omega
      refine .inl ⟨_, by simp only [step, next, thread_ok hx, hp, sliceFree, if_pos hal, bind, Except.bind]; rfl, ?_⟩
      refine goto_inv hx rfl rfl h (.inl rfl) (fun pre fin h1 h2 => ?_)
      simp only [reduceCtorEq, if_false] at h2
      refine ⟨rfl, by omega, by omega, ?_, ?_, ?_⟩
      · simp only [Bool.false_eq_true, false_iff]; omega
      · intro h3; omega
      · intro _ _; exact h.after hrefs (by omega)
    | lastData =>
      have e1 : fPre x = 1 := by simp [fPre, hp]
      have e2 : fFin x = 0 := by simp [fFin, hp]
      have hpre := le_total fPre _ _ _ hx
      rw [e1] at hpre
      have hal : s.alive = true := h.alive.mpr (.inr (by omega))
      obtain ⟨hd, hr0, hg0⟩ := h.before (.inr (by omega))
      have hone := h.one
      have hrefs : s.refs = 0 := by have := h.busy; omega
      cases hk : s.kind with
      | nothing =>
        refine .inr ⟨fun hq => h.data hq t x hx hp hk, t, x, rfl, hx, .inr ⟨hp, hk, ?_⟩⟩
        simp only [step, next, thread_ok hx, hp, finishData, access_ok hal, read_ok hd, hk, bind, Except.bind]
      | gfree =>
        refine .inl ⟨_, by simp only [step, next, thread_ok hx, hp, finishData, access_ok hal, read_ok hd, hk, bind, Except.bind]; rfl, ?_⟩
        refine goto_inv hx rfl hk.symm h (.inr rfl) (fun pre fin h1 h2 => ?_)
        simp only [if_true] at h2
        refine ⟨rfl, by omega, by omega, by simp only [hal, true_iff]; omega, ?_, ?_⟩
        · intro h3; omega
        · intro _ _; rw [hk]; simp only [reduceCtorEq, if_false]; omega
      | func =>
        refine .inl ⟨_, by simp only [step, next, thread_ok hx, hp, finishData, access_ok hal, read_ok hd, release, if_pos hd, hk, bind, Except.bind]; rfl, ?_⟩
        refine goto_inv hx rfl hk.symm h (.inr rfl) (fun pre fin h1 h2 => ?_)
        simp only [if_true] at h2
        refine ⟨rfl, by omega, by omega, by simp only [hal, true_iff]; omega, ?_, ?_⟩
        · intro h3; omega
        · intro _ _; rw [hk]; simp only [reduceCtorEq, if_false]; omega
    | copy =>
      have e1 : fPre x = 0 := by simp [fPre, hp]
      have e2 : fFin x = 0 := by simp [fFin, hp]
      by_cases hok : s.alive = true ∧ s.data = true
      · obtain ⟨hal, hd⟩ := hok
        refine .inl ⟨_, by simp only [step, next, thread_ok hx, hp, copy, access_ok hal, read_ok hd, bind, Except.bind]; rfl, ?_⟩
        refine goto_inv hx rfl rfl h (.inl rfl) (fun pre fin h1 h2 => ?_)
        simp only [reduceCtorEq, if_false] at h2
        have k1 : pre = total fPre s.threads := by omega
        have k2 : fin = total fFin s.threads := by omega
        subst k1 k2
        exact ⟨rfl, h.one, h.busy, h.alive, h.before, h.after⟩
      · have hr : s.refs = 0 := by
          rcases Nat.eq_zero_or_pos s.refs with h0 | h0
          · exact h0
          · exact absurd ⟨h.alive.mpr (.inl h0), (h.before (.inl h0)).1⟩ hok
        refine .inr ⟨fun hq => ?_, t, x, rfl, hx, .inl ⟨hp, hr, ?_, ?_⟩⟩
        · have := (live t x hx (h.copy hq t x hx hp)).1
          omega
        · cases ha : s.alive <;> cases hd : s.data <;> simp_all
        · simp only [step, next, thread_ok hx, hp, copy, State.access, State.read, bind, Except.bind]
          cases ha : s.alive <;> cases hd : s.data <;> simp_all

theorem step_inv {s : State} {a : Act} (h : Inv True s) (ha : Allowed s a) (hc : Careful s a) :
    ∃ s', step s a = .ok s' ∧ Inv True s' :=
  (step_inv' h ha (fun _ => hc)).resolve_right (fun h => h.1 trivial)

theorem reach_inv' {q : Prop} {P : State → Act → Prop} {kind : Kind} {n : Nat} {s : State} (hP : q → ∀ s a, P s a → Careful s a) (h : Reach P kind n s) :
    Inv q s := by
  induction h with
  | new => exact new_inv q kind n
  | step _ ha hp hs ih =>
    rcases step_inv' ih ha (fun hq => hP hq _ _ hp) with ⟨s', h1, h2⟩ | ⟨-, t, x, -, -, h | h⟩
    · rw [h1] at hs
      cases hs
      exact h2
    · rw [h.2.2.2] at hs
      cases hs
    · rw [h.2.2] at hs
      cases hs

theorem reach_inv {P : State → Act → Prop} {kind : Kind} {n : Nat} {s : State} (hP : ∀ s a, P s a → Careful s a) (h : Reach P kind n s) : Inv True s :=
  reach_inv' (fun _ => hP) h

end Verif.Shared
