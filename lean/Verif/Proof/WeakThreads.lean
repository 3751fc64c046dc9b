import Verif.Model.WeakThreads

namespace Verif.WeakThreads
open Verif.C

def strongW (o : Nat) : Event → Int
  | .create x | .ref x => if x = o then 1 else 0
  | .got _ x => if x = some o then 1 else 0
  | .unref x => if x = o then -1 else 0
  | _ => 0

def heldW (w : Nat) : Event → Int
  | .new x | .hold x => if x = w then 1 else 0
  | .drop x => if x = w then -1 else 0
  | _ => 0

theorem strong_snoc (o : Nat) (log : List Event) (e : Event) : strong o (log ++ [e]) = strong o log + strongW o e := by
  induction log with
  | nil => cases e <;> simp [strong, strongW]
  | cons x t ih => cases x <;> simp [strong, ih, Int.add_assoc]

theorem held_snoc (o : Nat) (log : List Event) (e : Event) : held o (log ++ [e]) = held o log + heldW o e := by
  induction log with
  | nil => cases e <;> simp [held, heldW]
  | cons x t ih => cases x <;> simp [held, ih, Int.add_assoc]

theorem lastSet_snoc (w : Nat) (log : List Event) (e : Event) :
    lastSet w (log ++ [e]) = match e with | .set x o => if x = w then o else lastSet w log | _ => lastSet w log := by
  unfold lastSet
  rw [List.filterMap_append]
  cases e <;> simp
  rename_i x o
  by_cases h : x = w <;> simp [h]

/-- The thread is releasing the weak reference. -/
def Rel (pc : Nat → Pc) (t w : Nat) : Prop := pc t = .clear w ∨ pc t = .free w

structure Inv (s : State) : Prop where
  strongEq : ∀ x, ((s.objs x).refs : Int) = strong x s.log
  heldEq : ∀ w, ((s.refs w).count : Int) = held w s.log
  fresh : ∀ w, s.nref ≤ w → (s.refs w).alive = false ∧ (s.refs w).count = 0 ∧ (s.refs w).target = none ∧ lastSet w s.log = none
  freshObj : ∀ x, s.nobj ≤ x → (s.objs x).refs = 0
  aliveIff : ∀ w, (s.refs w).alive = true ↔ 0 < (s.refs w).count ∨ ∃ t, Rel s.pc t w
  releasing : ∀ t w, Rel s.pc t w → (s.refs w).count = 0
  unique : ∀ t t' w, Rel s.pc t w → Rel s.pc t' w → t = t'
  cleared : ∀ t w, s.pc t = .free w → (s.refs w).target = none
  reg : ∀ w x, (s.refs w).target = some x ↔ w ∈ (s.objs x).locs
  live : ∀ w x, (s.refs w).target = some x → 0 < (s.objs x).refs ∧ (s.refs w).alive = true
  last : ∀ w, 0 < (s.refs w).count → ∀ x, (s.refs w).target = some x ↔ lastSet w s.log = some x ∧ 0 < (s.objs x).refs
  known : ∀ w x, lastSet w s.log = some x → x < s.nobj
  freed : ∀ w, s.log.count (.freed w) = if (s.refs w).alive = false ∧ w < s.nref then 1 else 0
  made : ∀ w, .new w ∈ s.log ↔ w < s.nref

theorem inv_init : Inv init := by
  constructor <;> simp [init, strong, held, lastSet, Rel]

theorem upd_same {α : Type} (f : Nat → α) (k : Nat) (v : α) : upd f k v k = v := by simp [upd]
theorem upd_ne {α : Type} (f : Nat → α) {k i : Nat} (v : α) (h : i ≠ k) : upd f k v i = f i := by simp [upd, h]

theorem inv_objNew {s : State} (h : Inv s) : Inv (objNew s) := by
  obtain ⟨h1, h2, h3, h4, h5, h6, h7, h8, h9, h10, h11, h12, h13, h14⟩ := h
  have n0 := h4 s.nobj (Nat.le_refl _)
  have l0 : ∀ w, w ∉ (s.objs s.nobj).locs := by
    intro w hw
    have := (h10 w _ ((h9 w _).2 hw)).1
    omega
  constructor <;> simp only [objNew, strong_snoc, held_snoc, lastSet_snoc, strongW, heldW, List.count_append, upd] at * <;> grind

theorem inv_objRef {s : State} {x : Nat} (h : Inv s) (hx : 0 < strong x s.log) : ∃ s', objRef s x = .ok s' ∧ Inv s' := by
  obtain ⟨h1, h2, h3, h4, h5, h6, h7, h8, h9, h10, h11, h12, h13, h14⟩ := h
  have n0 := h1 x
  refine ⟨_, by rw [objRef, if_neg (by omega)], ?_⟩
  constructor <;> simp only [strong_snoc, held_snoc, lastSet_snoc, strongW, heldW, List.count_append, upd] at * <;> grind

theorem inv_objUnref {s : State} {x : Nat} (h : Inv s) (hx : 0 < strong x s.log) : ∃ s', objUnref s x = .ok s' ∧ Inv s' := by
  obtain ⟨h1, h2, h3, h4, h5, h6, h7, h8, h9, h10, h11, h12, h13, h14⟩ := h
  have n0 := h1 x
  have ha : ∀ w ∈ (s.objs x).locs, (s.refs w).alive = true := fun w hw => (h10 w x ((h9 w x).2 hw)).2
  rw [objUnref, if_neg (by omega)]
  by_cases h1' : (s.objs x).refs = 1
  · rw [if_pos h1', if_pos ha]
    refine ⟨_, rfl, ?_⟩
    constructor <;> simp only [strong_snoc, held_snoc, lastSet_snoc, strongW, heldW, List.count_append, upd] at * <;> grind
  · rw [if_neg h1']
    refine ⟨_, rfl, ?_⟩
    constructor <;> simp only [strong_snoc, held_snoc, lastSet_snoc, strongW, heldW, List.count_append, upd] at * <;> grind

theorem inv_ref {s : State} {w : Nat} (h : Inv s) (hw : 0 < held w s.log) : ∃ s', ref s w = .ok s' ∧ Inv s' := by
  obtain ⟨h1, h2, h3, h4, h5, h6, h7, h8, h9, h10, h11, h12, h13, h14⟩ := h
  have n0 := h2 w
  have ha : (s.refs w).alive = true := (h5 w).2 (.inl (by omega))
  refine ⟨_, by rw [ref, access, if_pos ha, ok_bind], ?_⟩
  constructor <;> simp only [strong_snoc, held_snoc, lastSet_snoc, strongW, heldW, List.count_append, upd] at * <;> grind

theorem inv_unref {s : State} {t w : Nat} (h : Inv s) (ht : s.pc t = .idle) (hw : 0 < held w s.log) :
    ∃ s', unref s t w = .ok s' ∧ Inv s' := by
  obtain ⟨h1, h2, h3, h4, h5, h6, h7, h8, h9, h10, h11, h12, h13, h14⟩ := h
  have n0 := h2 w
  have ha : (s.refs w).alive = true := (h5 w).2 (.inl (by omega))
  have hr : ∀ t', ¬ Rel s.pc t' w := fun t' hr => by have := h6 t' w hr; omega
  refine ⟨_, by rw [unref, access, if_pos ha, ok_bind, if_neg (by omega)], ?_⟩
  by_cases hc : (s.refs w).count = 1
  · rw [if_pos hc]
    constructor <;> simp only [strong_snoc, held_snoc, lastSet_snoc, strongW, heldW, List.count_append, upd, Rel] at * <;> grind
  · rw [if_neg hc]
    constructor <;> simp only [strong_snoc, held_snoc, lastSet_snoc, strongW, heldW, List.count_append, upd] at * <;> grind

theorem weakClear_eq {s : State} {w : Nat} (h : ∀ w x, (s.refs w).target = some x ↔ w ∈ (s.objs x).locs) :
    weakClear s w = { s with
      objs := fun x => { s.objs x with locs := (s.objs x).locs.filter (fun l => l ≠ w) }
      refs := upd s.refs w { s.refs w with target := none } } := by
  have hf : ∀ x, (s.refs w).target ≠ some x → (s.objs x).locs.filter (fun l => l ≠ w) = (s.objs x).locs := by
    intro x hx
    rw [List.filter_eq_self]
    intro l hl
    have := (h l x).2 hl
    simp
    rintro rfl
    exact hx this
  unfold weakClear
  split
  · rename_i e
    have h1 : s.objs = fun x => { s.objs x with locs := (s.objs x).locs.filter (fun l => l ≠ w) } := by
      funext x
      rw [hf x (by simp [e])]
    have h2 : s.refs = upd s.refs w { s.refs w with target := none } := by
      funext i
      by_cases hi : i = w
      · subst hi
        rw [upd_same, ← e]
      · rw [upd_ne _ _ hi]
    rw [← h1, ← h2]
  · rename_i x e
    congr 1
    funext y
    by_cases hy : y = x
    · subst hy
      rw [upd_same]
    · rw [upd_ne _ _ hy, hf y (by rw [e]; simpa using Ne.symm hy)]

theorem inv_go {s : State} {t : Nat} (h : Inv s) (ht : s.pc t ≠ .idle) : ∃ s', go s t = .ok s' ∧ Inv s' := by
  have hc := weakClear_eq h.reg (w := match s.pc t with | .clear w => w | _ => 0)
  obtain ⟨h1, h2, h3, h4, h5, h6, h7, h8, h9, h10, h11, h12, h13, h14⟩ := h
  cases e : s.pc t with
  | idle => exact absurd e ht
  | clear w =>
    have hr : Rel s.pc t w := .inl e
    have ha : (s.refs w).alive = true := (h5 w).2 (.inr ⟨t, hr⟩)
    have hz := h6 t w hr
    rw [e] at hc
    refine ⟨_, by rw [go, e]; dsimp only; rw [access, if_pos ha, ok_bind, hc], ?_⟩
    constructor <;> simp only [strong_snoc, held_snoc, lastSet_snoc, strongW, heldW, List.count_append, upd, Rel] at * <;> grind
  | free w =>
    have hr : Rel s.pc t w := .inr e
    have ha : (s.refs w).alive = true := (h5 w).2 (.inr ⟨t, hr⟩)
    have hz := h6 t w hr
    have hn : w < s.nref := by
      apply Classical.byContradiction
      intro hn
      have := (h3 w (by omega)).1
      rw [ha] at this
      cases this
    refine ⟨_, by rw [go, e]; dsimp only; rw [if_pos ha], ?_⟩
    constructor <;> simp only [strong_snoc, held_snoc, lastSet_snoc, strongW, heldW, List.count_append, upd, Rel] at * <;> grind

theorem inv_get {s : State} {w : Nat} (h : Inv s) (hw : 0 < held w s.log) :
    ∃ s', get s w = .ok (s', (s.refs w).target) ∧ Inv s' ∧ s'.log = s.log ++ [.got w (s.refs w).target] := by
  obtain ⟨h1, h2, h3, h4, h5, h6, h7, h8, h9, h10, h11, h12, h13, h14⟩ := h
  have n0 := h2 w
  have ha : (s.refs w).alive = true := (h5 w).2 (.inl (by omega))
  rw [get, access, if_pos ha, ok_bind]
  cases e : (s.refs w).target with
  | none =>
    refine ⟨_, by rw [weakGet, e]; rfl, ?_, rfl⟩
    constructor <;> simp only [strong_snoc, held_snoc, lastSet_snoc, strongW, heldW, List.count_append, upd] at * <;> grind
  | some x =>
    have hx := (h10 w x e).1
    refine ⟨_, by rw [weakGet, e]; dsimp only; rw [if_neg (by omega), ok_bind], ?_, rfl⟩
    constructor <;> simp only [strong_snoc, held_snoc, lastSet_snoc, strongW, heldW, List.count_append, upd] at * <;> grind

theorem inv_set {s : State} {w : Nat} {o : Option Nat} (h : Inv s) (hw : 0 < held w s.log) (ho : ∀ x, o = some x → 0 < strong x s.log) :
    ∃ s', set s w o = .ok s' ∧ Inv s' ∧ s'.log = s.log ++ [.set w o] := by
  have hc := weakClear_eq (s := { s with log := s.log ++ [.set w o] }) (w := w) h.reg
  obtain ⟨h1, h2, h3, h4, h5, h6, h7, h8, h9, h10, h11, h12, h13, h14⟩ := h
  have n0 := h2 w
  have ha : (s.refs w).alive = true := (h5 w).2 (.inl (by omega))
  have hr : ∀ t', ¬ Rel s.pc t' w := fun t' hr => by have := h6 t' w hr; omega
  rw [set, access, if_pos ha, ok_bind]
  cases o with
  | none =>
    refine ⟨_, congrArg Except.ok hc, ?_, rfl⟩
    constructor <;> simp only [strong_snoc, held_snoc, lastSet_snoc, strongW, heldW, List.count_append, upd, Rel] at * <;> grind
  | some x =>
    have hx := ho x rfl
    have n1 := h1 x
    have hn : x < s.nobj := by
      apply Classical.byContradiction
      intro hn
      have := h4 x (by omega)
      omega
    refine ⟨_, by rw [weakSet]; dsimp only; rw [if_neg (by omega), hc], ?_, rfl⟩
    constructor <;> simp only [strong_snoc, held_snoc, lastSet_snoc, strongW, heldW, List.count_append, upd, Rel] at * <;> grind

theorem snoc2 (l : List Event) (a b : Event) : l ++ [a, b] = (l ++ [a]) ++ [b] := by simp

theorem inv_new {s : State} {o : Option Nat} (h : Inv s) (ho : ∀ x, o = some x → 0 < strong x s.log) :
    ∃ s', new s o = .ok s' ∧ Inv s' ∧ s'.log = s.log ++ [.new s.nref, .set s.nref o] := by
  obtain ⟨h1, h2, h3, h4, h5, h6, h7, h8, h9, h10, h11, h12, h13, h14⟩ := h
  have n0 := h3 s.nref (Nat.le_refl _)
  have hr : ∀ t', ¬ Rel s.pc t' s.nref := fun t' hr => by
    have := (h5 s.nref).2 (.inr ⟨t', hr⟩)
    rw [n0.1] at this
    cases this
  have hl : ∀ x, s.nref ∉ (s.objs x).locs := fun x hx => by
    have := (h9 s.nref x).2 hx
    rw [n0.2.2.1] at this
    cases this
  have hc : ∀ l : List Event, weakClear { s with
      refs := upd s.refs s.nref { alive := true, count := 1, target := none }
      nref := s.nref + 1
      log := l } s.nref = { s with
      refs := upd s.refs s.nref { alive := true, count := 1, target := none }
      nref := s.nref + 1
      log := l } := by
    intro l
    rw [weakClear]
    dsimp only
    rw [upd_same]
  rw [new]
  cases o with
  | none =>
    refine ⟨_, congrArg Except.ok (hc _), ?_, rfl⟩
    constructor <;> simp only [snoc2, strong_snoc, held_snoc, lastSet_snoc, strongW, heldW, List.count_append, upd, Rel] at * <;> grind
  | some x =>
    have hx := ho x rfl
    have n1 := h1 x
    have hn : x < s.nobj := by
      apply Classical.byContradiction
      intro hn
      have := h4 x (by omega)
      omega
    refine ⟨_, by rw [weakSet]; dsimp only; rw [if_neg (by omega), hc], ?_, rfl⟩
    constructor <;> simp only [snoc2, strong_snoc, held_snoc, lastSet_snoc, strongW, heldW, List.count_append, upd, Rel] at * <;> grind

theorem inv_step {s : State} {a : Act} (h : Inv s) (ha : Allowed s a) : ∃ s', step s a = .ok s' ∧ Inv s' := by
  cases a with
  | go t => exact inv_go h ha
  | call t c =>
    obtain ⟨ht, ha⟩ := ha
    cases c with
    | objNew => exact ⟨_, rfl, inv_objNew h⟩
    | objRef x => exact inv_objRef h ha
    | objUnref x => exact inv_objUnref h ha
    | new o =>
      obtain ⟨s', e, i, _⟩ := inv_new h (o := o) (by rintro x rfl; exact ha)
      exact ⟨s', e, i⟩
    | ref w => exact inv_ref h ha
    | unref w => exact inv_unref h ht ha
    | get w =>
      obtain ⟨s', e, i, _⟩ := inv_get h ha
      exact ⟨s', by rw [step, e, ok_bind], i⟩
    | set w o =>
      cases o with
      | none =>
        obtain ⟨s', e, i, _⟩ := inv_set h (o := none) ha (by simp)
        exact ⟨s', e, i⟩
      | some x =>
        obtain ⟨s', e, i, _⟩ := inv_set h (o := some x) ha.1 (by rintro y h; cases h; exact ha.2)
        exact ⟨s', e, i⟩

theorem reach_inv {s : State} (h : Reach s) : Inv s := by
  induction h with
  | init => exact inv_init
  | step h ha e ih =>
    obtain ⟨s', e', i⟩ := inv_step ih ha
    rw [e] at e'
    cases e'
    exact i

end Verif.WeakThreads
